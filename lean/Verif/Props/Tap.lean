import Verif.Lemmas.Tap
import Verif.Props.Collude
import Verif.Props.PmCollude
import Verif.Props.AbmCollude
import Verif.Props.Effort

/-!
# C103: what somebody learns who reads the connections
-/

namespace Mastic

variable {P : Prims} {c0 c1 : ServerCfg} {bld : Build} {cfg : Config} {draw : MainDraw} {n d : Nat}

/-- C103 is false: one fixed function, without any knowledge of keys or primitives, reads the strings of all clients from
the messages to one of the servers.  This holds in both modes with strings, for every configuration and all random values,
misbehaving clients included, and whatever the servers answer. -/
theorem C103_false_strings (e : IntEnc) (own : Bool) {mode : DriverMode} (hm : mode ≠ .plainMetrics)
    (hd : cfg.dataBits = some d) {reply : List (Req × Req) → Resp × Resp} {sent : List (Req × Req)} {out : Shown}
    (h : Spec.dialogue reply (mainP P bld cfg mode draw n) [] = (sent, some out))
    (hfit : ∀ r ∈ sent, Spec.reqFits (Pair.get r own) = true) :
    Spec.tapStrings e (Spec.carried e own sent)
      = (List.range n).map fun i => (Spec.drawn cfg.histBuckets d (Spec.MainDraw.of draw i)).1 := by
  obtain ⟨s, hs, hsaid⟩ := said_dialogue h
  rw [List.nil_append] at hs
  subst hs
  obtain ⟨reports, sh, hg, hsh, hsent⟩ := said_main hsaid
  have hlen : sh.length = n := by rw [mapE_length hsh]; simp
  unfold Spec.tapStrings
  rw [overheard_carried hfit, hsent]
  refine List.ext_getElem (by cases own <;> simp [Pair.get, hlen]) fun i h1 h2 => ?_
  have hi : i < n := by simpa using h2
  obtain ⟨rep, hr, hp⟩ := picked_report hg hsh hi (by omega)
  obtain ⟨nonce, p0, p1, j0, j1, rs, beta, -, hx⟩ := picked_mastic hm hd hr hp
  simp only [List.getElem_map, List.getElem_range]
  cases own
  · simp only [Pair.get, List.getElem_map, hx]
    exact tapString_gen (P := P) (rs := rs) (beta := beta) false
  · simp only [Pair.get, List.getElem_map, hx]
    exact tapString_gen (P := P) (rs := rs) (beta := beta) true

/-- C103 is false: from the messages to both servers the weights of all clients can be computed, with nothing but the
public primitives and the number of buckets. -/
theorem C103_false_weights (e : IntEnc) {mode : DriverMode} (hm : mode ≠ .plainMetrics)
    (hd : cfg.dataBits = some d) (hd1 : 1 ≤ d) {reply : List (Req × Req) → Resp × Resp} {sent : List (Req × Req)}
    {out : Shown} (h : Spec.dialogue reply (mainP P bld cfg mode draw n) [] = (sent, some out))
    (hfit : ∀ r ∈ sent, Spec.reqFits r.1 = true ∧ Spec.reqFits r.2 = true) :
    Spec.tapWeights P cfg.histBuckets e (Spec.carried e false sent) (Spec.carried e true sent)
      = (List.range n).map fun i => some (Spec.drawn cfg.histBuckets d (Spec.MainDraw.of draw i)).2 := by
  obtain ⟨s, hs, hsaid⟩ := said_dialogue h
  rw [List.nil_append] at hs
  subst hs
  obtain ⟨reports, sh, hg, hsh, hsent⟩ := said_main hsaid
  have hlen : sh.length = n := by rw [mapE_length hsh]; simp
  unfold Spec.tapWeights
  rw [overheard_carried (own := false) fun r hr => (hfit r hr).1,
    overheard_carried (own := true) fun r hr => (hfit r hr).2, hsent]
  refine List.ext_getElem (by simp [Pair.get, hlen]) fun i h1 h2 => ?_
  have hi : i < n := by simpa using h2
  obtain ⟨rep, hr, hp⟩ := picked_report hg hsh hi (by omega)
  obtain ⟨nonce, p0, p1, j0, j1, rs, beta, hb, hx⟩ := picked_mastic hm hd hr hp
  simp only [List.getElem_map, List.getElem_range, List.getElem_zip, Pair.get, hx]
  exact tapWeight_gen hb fun e => by
    have := congrArg List.length e
    simp [Spec.stringOf] at this
    omega

/-- C103 is false in plain metrics too, with libprio's Prio3: from the messages to both servers the buckets of all clients
can be computed, if the clients do not misbehave. -/
theorem C103_false_buckets {X : Prio3Xof} (e : IntEnc) {reply : List (Req × Req) → Resp × Resp}
    {sent : List (Req × Req)} {out : Shown}
    (h : Spec.dialogue reply (mainP (P.withPrio3 X) bld cfg .plainMetrics draw n) [] = (sent, some out))
    (htam : ∀ i < n, (draw.picks i).2 = none)
    (hfit : ∀ r ∈ sent, Spec.reqFits r.1 = true ∧ Spec.reqFits r.2 = true) :
    Spec.tapBuckets X cfg.histBuckets e (Spec.carried e false sent) (Spec.carried e true sent)
      = (List.range n).map fun i => some ((Spec.MainDraw.of draw i).bucket % cfg.histBuckets) := by
  obtain ⟨s, hs, hsaid⟩ := said_dialogue h
  rw [List.nil_append] at hs
  subst hs
  obtain ⟨reports, sh, hg, hsh, hsent⟩ := said_main hsaid
  have hlen : sh.length = n := by rw [mapE_length hsh]; simp
  unfold Spec.tapBuckets
  rw [overheard_carried (own := false) fun r hr => (hfit r hr).1,
    overheard_carried (own := true) fun r hr => (hfit r hr).2, hsent]
  refine List.ext_getElem (by simp [Pair.get, hlen]) fun i h1 h2 => ?_
  have hi : i < n := by simpa using h2
  obtain ⟨rep, hr, hp⟩ := picked_report hg hsh hi (by omega)
  rw [htam i hi] at hp
  have := picked_prio3 hr hp
  simp only [List.getElem_map, List.getElem_range, List.getElem_zip, Pair.get]
  exact this

/-! ### The three are about runs that exist -/

/-- A run that ends, with requests that fit. -/
theorem dialogue_fits {α : Type} {reply : List (Req × Req) → Resp × Resp} {p : Prog α}
    (h : ((Spec.dialogue reply p []).2.isSome && (Spec.dialogue reply p []).1.all fun r =>
      Spec.reqFits r.1 && Spec.reqFits r.2) = true) :
    ∃ sent out, Spec.dialogue reply p [] = (sent, some out) ∧
      ∀ r ∈ sent, Spec.reqFits r.1 = true ∧ Spec.reqFits r.2 = true := by
  generalize Spec.dialogue reply p [] = x at h ⊢
  obtain ⟨sent, out⟩ := x
  rw [Bool.and_eq_true] at h
  obtain ⟨a, ha⟩ := Option.isSome_iff_exists.1 h.1
  dsimp only at ha
  subst ha
  exact ⟨sent, a, rfl, fun r hr => (Bool.and_eq_true _ _).mp (List.all_eq_true.1 h.2 r hr)⟩

/-- Two clients with string `10` and weights 0 and 1, and servers that disagree in every crawl. -/
example (e : IntEnc) (own : Bool) : ∃ sent out,
    Spec.dialogue Spec.stubborn (mainP toy .debug ⟨some 2, 2, 2, 2, 2, 2⟩ .weightedHeavyHitters pairDraw 2) []
      = (sent, some out) ∧
    Spec.tapStrings e (Spec.carried e own sent) = [[true, false], [true, false]] ∧
    Spec.tapWeights toy 2 e (Spec.carried e false sent) (Spec.carried e true sent) = [some 0, some 1] := by
  obtain ⟨sent, out, hd, hfit⟩ := dialogue_fits (reply := Spec.stubborn)
    (p := mainP toy .debug ⟨some 2, 2, 2, 2, 2, 2⟩ .weightedHeavyHitters pairDraw 2) (by decide +kernel)
  refine ⟨sent, out, hd, ?_, ?_⟩
  · rw [C103_false_strings e own (by simp) rfl hd (fun r hr => by
      cases own
      exacts [(hfit r hr).1, (hfit r hr).2])]
    decide
  · rw [show (2 : Nat) = (⟨some 2, 2, 2, 2, 2, 2⟩ : Config).histBuckets from rfl,
      C103_false_weights e (by simp) rfl (by decide) hd hfit]
    decide

/-- Two clients of plain metrics with buckets 0 and 1, and servers that answer with zeros. -/
example (e : IntEnc) : ∃ sent out,
    Spec.dialogue (fun got => if got.length = 4 then (.bytes [[], []], .bytes [[], []])
        else if got.length = 5 then (.aggregate [0, 0] 0, .aggregate [0, 0] 0) else (.done, .done))
      (mainP (toy.withPrio3 toyXof) .debug ⟨none, 2, 1, 2, 2, 2⟩ .plainMetrics seedsDraw 2) [] = (sent, some out) ∧
    Spec.tapBuckets toyXof 2 e (Spec.carried e false sent) (Spec.carried e true sent) = [some 0, some 1] := by
  obtain ⟨sent, out, hd, hfit⟩ := dialogue_fits (reply := fun got => if got.length = 4 then (.bytes [[], []], .bytes [[], []])
        else if got.length = 5 then (.aggregate [0, 0] 0, .aggregate [0, 0] 0) else (.done, .done))
    (p := mainP (toy.withPrio3 toyXof) .debug ⟨none, 2, 1, 2, 2, 2⟩ .plainMetrics seedsDraw 2) (by decide +kernel)
  refine ⟨sent, out, hd, ?_⟩
  rw [show (2 : Nat) = (⟨none, 2, 1, 2, 2, 2⟩ : Config).histBuckets from rfl,
    C103_false_buckets e hd (fun _ _ => rfl) hfit]
  decide

/-! ### What one connection does not show -/

/-- Equal requests and answers are equal messages. -/
theorem messages_eq {sent sent' : List (Req × Req)} (got : List (Resp × Resp)) {own : Bool}
    (h : Spec.received own sent = Spec.received own sent') (e : IntEnc) :
    Spec.carried e own sent = Spec.carried e own sent' ∧
    Spec.returned e own sent got = Spec.returned e own sent' got := by
  unfold Spec.carried Spec.returned
  rw [h]
  exact ⟨rfl, rfl⟩

/-- **C103, one connection, weighted heavy hitters.**  Whoever reads one of the connections in both directions sees the same messages for
any two assignments of weights with the same total weights at the prefixes that the servers evaluate, for corresponding
values of what is not known.  (Missing: the strings, and the other connection, `C103_false_strings` and
`C103_false_weights`.) -/
theorem C103_whh_partial {weight weight' : Nat → Nat} (own : Bool)
    (hs : Spec.Sensible P.withHistogram cfg draw n) (hb64 : cfg.histBuckets < 2 ^ 64)
    (hxof : ∀ seed binder l, (P.xofField seed binder l).length = l)
    (hroot : ∀ i < n, ∀ t ∈ P.xofField draw.verifyKey (Spec.MainDraw.of draw i).rand.nonce.toList 1,
      t ^ Spec.points cfg.histBuckets 2 ≠ 1)
    (htam : ∀ i < n, (draw.picks i).2 ≠ some .flp) (hd : cfg.dataBits = some d) (hs0 : c0.dataBits = some d)
    (hs1 : c1.dataBits = some d) (hd2 : 2 ≤ d) (h0 : c0.serverId = 0) (h1 : c1.serverId ≠ 0) (hn : 1 ≤ n)
    (hlt : n < 2 ^ 64) (hw : ∀ i < cfg.uniqueBuckets, weight i < cfg.histBuckets)
    (hw' : ∀ i < cfg.uniqueBuckets, weight' i < cfg.histBuckets)
    (hheavy : ∃ s : List Bool, s.length = d - 2 ∧
      (s ≠ [] → max 1 cfg.threshold ≤ (Spec.runStrings d draw n).countP fun a => s.isPrefixOf a))
    (hf : Spec.FreshRun P.withHistogram cfg.uniqueBuckets cfg.histBuckets d draw own)
    (he : Spec.FreshEvals P.withHistogram cfg.uniqueBuckets cfg.histBuckets d draw own
      (Spec.askedAt (max 1 cfg.threshold) d ((Spec.runStrings d draw n).map some)))
    (hsame : ∀ p ∈ Spec.askedAt (max 1 cfg.threshold) d ((Spec.runStrings d draw n).map some),
      Spec.weightsBelow cfg.histBuckets d draw weight n p = Spec.weightsBelow cfg.histBuckets d draw weight' n p) :
    ∃ F : Spec.RunCoins P.withHistogram cfg.uniqueBuckets cfg.histBuckets d draw
        ≃ Spec.RunCoins P.withHistogram cfg.uniqueBuckets cfg.histBuckets d draw,
      ∀ (w : Spec.RunCoins P.withHistogram cfg.uniqueBuckets cfg.histBuckets d draw) (Q Q' : Prims),
        Q = Spec.setRun P.withHistogram cfg.uniqueBuckets cfg.histBuckets d draw (!own) w →
        Q' = Spec.setRun P.withHistogram cfg.uniqueBuckets cfg.histBuckets d draw (!own) (F w) →
        ∀ (kcs : Pair2 Q) (kcs' : Pair2 Q'),
        ∃ (sent sent' : List (Req × Req)) (got : List (Resp × Resp)) (out out' : Shown) (t0 t1 : Server Q)
          (t0' t1' : Server Q'),
          Spec.Hears c0 c1 (mainP Q bld cfg .weightedHeavyHitters (Spec.runDraw draw weight w) n) (.running kcs.1)
            (.running kcs.2) sent got out t0 t1 ∧
          Spec.Hears c0 c1 (mainP Q' bld cfg .weightedHeavyHitters (Spec.runDraw draw weight' (F w)) n)
            (.running kcs'.1) (.running kcs'.2) sent' got out' t0' t1' ∧
          ∀ e, Spec.carried e own sent = Spec.carried e own sent' ∧
            Spec.returned e own sent got = Spec.returned e own sent' got := by
  obtain ⟨F, hF⟩ := C95_aggregates (bld := bld) (c0 := c0) (c1 := c1) own hs hb64 hxof hroot htam hd hs0 hs1 hd2 h0 h1 hn
    hlt hw hw' hheavy hf he hsame
  refine ⟨F, fun w Q Q' hQ hQ' kcs kcs' => ?_⟩
  obtain ⟨sent, sent', got, out, out', t0, t1, t0', t1', a, b, r, -⟩ := hF w Q Q' hQ hQ' kcs kcs'
  exact ⟨sent, sent', got, out, out', t0, t1, t0', t1', a, b, messages_eq got r⟩

/-- **C103, one connection, attribute-based metrics.**  The same for any two assignments of weights with the same printed result.  (Missing: the
strings, and the other connection.) -/
theorem C103_abm_partial {weight weight' : Nat → Nat} {num : Nat} (own : Bool)
    (hs : Spec.Sensible P.withHistogram cfg draw n) (hb64 : cfg.histBuckets < 2 ^ 64)
    (hxof : ∀ seed binder l, (P.xofField seed binder l).length = l)
    (hroot : ∀ i < n, ∀ t ∈ P.xofField draw.verifyKey (Spec.MainDraw.of draw i).rand.nonce.toList 1,
      t ^ Spec.points cfg.histBuckets 2 ≠ 1)
    (htam : ∀ i < n, (draw.picks i).2 ≠ some .flp) (hd : cfg.dataBits = some d) (hd1 : 1 ≤ d) (h0 : c0.serverId = 0)
    (h1 : c1.serverId ≠ 0) (hattr : ∀ j < num, draw.attributes j < cfg.uniqueBuckets)
    (hw : ∀ i < cfg.uniqueBuckets, weight i < cfg.histBuckets)
    (hw' : ∀ i < cfg.uniqueBuckets, weight' i < cfg.histBuckets)
    (hf : Spec.FreshRun P.withHistogram cfg.uniqueBuckets cfg.histBuckets d draw own)
    (he : Spec.FreshEvals P.withHistogram cfg.uniqueBuckets cfg.histBuckets d draw own
      (Spec.attributePaths (runAttributes d num draw)))
    (hsame : Spec.abmShown cfg.histBuckets cfg.queryBatch n (runAttributes d num draw) (Spec.runClients d draw weight n)
      = Spec.abmShown cfg.histBuckets cfg.queryBatch n (runAttributes d num draw) (Spec.runClients d draw weight' n)) :
    ∃ F : Spec.RunCoins P.withHistogram cfg.uniqueBuckets cfg.histBuckets d draw
        ≃ Spec.RunCoins P.withHistogram cfg.uniqueBuckets cfg.histBuckets d draw,
      ∀ (w : Spec.RunCoins P.withHistogram cfg.uniqueBuckets cfg.histBuckets d draw) (Q Q' : Prims),
        Q = Spec.setRun P.withHistogram cfg.uniqueBuckets cfg.histBuckets d draw (!own) w →
        Q' = Spec.setRun P.withHistogram cfg.uniqueBuckets cfg.histBuckets d draw (!own) (F w) →
        ∀ (kcs : Pair2 Q) (kcs' : Pair2 Q'),
        ∃ (sent sent' : List (Req × Req)) (got : List (Resp × Resp)) (out out' : Shown) (t0 t1 : Server Q)
          (t0' t1' : Server Q'),
          Spec.Hears c0 c1 (mainP Q bld cfg (.attributeBasedMetrics num) (Spec.runDraw draw weight w) n)
            (.running kcs.1) (.running kcs.2) sent got out t0 t1 ∧
          Spec.Hears c0 c1 (mainP Q' bld cfg (.attributeBasedMetrics num) (Spec.runDraw draw weight' (F w)) n)
            (.running kcs'.1) (.running kcs'.2) sent' got out' t0' t1' ∧
          ∀ e, Spec.carried e own sent = Spec.carried e own sent' ∧
            Spec.returned e own sent got = Spec.returned e own sent' got := by
  obtain ⟨F, hF⟩ := C97_aggregates (bld := bld) (c0 := c0) (c1 := c1) own hs hb64 hxof hroot htam hd hd1 h0 h1 hattr hw hw'
    hf he hsame
  refine ⟨F, fun w Q Q' hQ hQ' kcs kcs' => ?_⟩
  obtain ⟨sent, sent', got, t0, t1, t0', t1', a, b, r, -⟩ := hF w Q Q' hQ hQ' kcs kcs'
  exact ⟨sent, sent', got, _, _, t0, t1, t0', t1', a, b, messages_eq got r⟩

/-- **C103, one connection, plain metrics.**  Whoever reads the connection to the leader sees the same messages for any two
assignments of buckets with the same printed result.  (Missing: the other connection.) -/
theorem C103_leader_partial {X : Prio3Xof} {bucket bucket' : Nat → Nat}
    (hs : Spec.Sensible (P.withPrio3 X) cfg draw n) (hok : P.prio3Ok cfg.histBuckets = true)
    (hb64 : cfg.histBuckets < 2 ^ 64)
    (hq : ∀ i < n, Spec.queryPoint X draw.verifyKey (Spec.MainDraw.of draw i).rand.nonce
      ^ Spec.points cfg.histBuckets (Spec.chunk cfg.histBuckets) ≠ 1)
    (h0 : c0.serverId = 0) (h1 : c1.serverId = 1) (hsmall : n < fieldModulus)
    (htam : ∀ i < n, (draw.picks i).2 = none) (hw : ∀ i < cfg.uniqueBuckets, bucket i < cfg.histBuckets)
    (hw' : ∀ i < cfg.uniqueBuckets, bucket' i < cfg.histBuckets) (hf : Spec.FreshSeeds cfg.uniqueBuckets draw)
    (hsame : Spec.pmShown cfg.histBuckets cfg.queryBatch n draw bucket
      = Spec.pmShown cfg.histBuckets cfg.queryBatch n draw bucket') :
    ∃ F : (Fin cfg.uniqueBuckets → Spec.HelperCoins cfg.histBuckets (Spec.chunk cfg.histBuckets))
        ≃ (Fin cfg.uniqueBuckets → Spec.HelperCoins cfg.histBuckets (Spec.chunk cfg.histBuckets)),
      ∀ (w : Fin cfg.uniqueBuckets → Spec.HelperCoins cfg.histBuckets (Spec.chunk cfg.histBuckets)) (Q Q' : Prims),
        Q = P.withPrio3 (Spec.setHelpers X draw w) → Q' = P.withPrio3 (Spec.setHelpers X draw (F w)) →
        ∀ (kcs : Pair2 Q) (kcs' : Pair2 Q'),
        ∃ (sent sent' : List (Req × Req)) (got : List (Resp × Resp)) (out out' : Shown) (t0 t1 : Server Q)
          (t0' t1' : Server Q'),
          Spec.Hears c0 c1 (mainP Q bld cfg .plainMetrics (Spec.bucketDraw draw bucket) n) (.running kcs.1)
            (.running kcs.2) sent got out t0 t1 ∧
          Spec.Hears c0 c1 (mainP Q' bld cfg .plainMetrics (Spec.bucketDraw draw bucket') n) (.running kcs'.1)
            (.running kcs'.2) sent' got out' t0' t1' ∧
          ∀ e, Spec.carried e false sent = Spec.carried e false sent' ∧
            Spec.returned e false sent got = Spec.returned e false sent' got := by
  obtain ⟨F, hF⟩ := C96_leader (bld := bld) (c0 := c0) (c1 := c1) hs hok hb64 hq h0 h1 hsmall htam hw hw' hf hsame
  refine ⟨F, fun w Q Q' hQ hQ' kcs kcs' => ?_⟩
  obtain ⟨sent, sent', got, t0, t1, t0', t1', a, b, r, -⟩ := hF w Q Q' hQ hQ' kcs kcs'
  exact ⟨sent, sent', got, _, _, t0, t1, t0', t1', a, b, messages_eq got r⟩

/-- **C103, one connection, plain metrics.**  The same for the connection to the helper. -/
theorem C103_helper_partial {X : Prio3Xof} {bucket bucket' : Nat → Nat}
    (hs : Spec.Sensible (P.withPrio3 X) cfg draw n) (hok : P.prio3Ok cfg.histBuckets = true)
    (hb64 : cfg.histBuckets < 2 ^ 64)
    (hq : ∀ i < n, Spec.queryPoint X draw.verifyKey (Spec.MainDraw.of draw i).rand.nonce
      ^ Spec.points cfg.histBuckets (Spec.chunk cfg.histBuckets) ≠ 1)
    (h0 : c0.serverId = 0) (h1 : c1.serverId = 1) (hsmall : n < fieldModulus)
    (htam : ∀ i < n, (draw.picks i).2 = none) (hw : ∀ i < cfg.uniqueBuckets, bucket i < cfg.histBuckets)
    (hw' : ∀ i < cfg.uniqueBuckets, bucket' i < cfg.histBuckets) (hf : Spec.FreshSeeds cfg.uniqueBuckets draw)
    (hsame : Spec.pmShown cfg.histBuckets cfg.queryBatch n draw bucket
      = Spec.pmShown cfg.histBuckets cfg.queryBatch n draw bucket') :
    ∃ F : (Fin cfg.uniqueBuckets → Spec.LeaderCoins (Spec.chunk cfg.histBuckets))
        ≃ (Fin cfg.uniqueBuckets → Spec.LeaderCoins (Spec.chunk cfg.histBuckets)),
      ∀ (w : Fin cfg.uniqueBuckets → Spec.LeaderCoins (Spec.chunk cfg.histBuckets)) (Q Q' : Prims),
        Q = P.withPrio3 (Spec.setLeaders X cfg.histBuckets draw bucket w) →
        Q' = P.withPrio3 (Spec.setLeaders X cfg.histBuckets draw bucket' (F w)) →
        ∀ (kcs : Pair2 Q) (kcs' : Pair2 Q'),
        ∃ (sent sent' : List (Req × Req)) (got : List (Resp × Resp)) (out out' : Shown) (t0 t1 : Server Q)
          (t0' t1' : Server Q'),
          Spec.Hears c0 c1 (mainP Q bld cfg .plainMetrics (Spec.bucketDraw draw bucket) n) (.running kcs.1)
            (.running kcs.2) sent got out t0 t1 ∧
          Spec.Hears c0 c1 (mainP Q' bld cfg .plainMetrics (Spec.bucketDraw draw bucket') n) (.running kcs'.1)
            (.running kcs'.2) sent' got out' t0' t1' ∧
          ∀ e, Spec.carried e true sent = Spec.carried e true sent' ∧
            Spec.returned e true sent got = Spec.returned e true sent' got := by
  obtain ⟨F, hF⟩ := C96_helper (bld := bld) (c0 := c0) (c1 := c1) hs hok hb64 hq h0 h1 hsmall htam hw hw' hf hsame
  refine ⟨F, fun w Q Q' hQ hQ' kcs kcs' => ?_⟩
  obtain ⟨sent, sent', got, t0, t1, t0', t1', a, b, r, -⟩ := hF w Q Q' hQ hQ' kcs kcs'
  exact ⟨sent, sent', got, _, _, t0, t1, t0', t1', a, b, messages_eq got r⟩

/-! ### Concrete runs -/

/-- Two clients with the same string: whoever reads one connection sees the same for weights 0 and 1 as for 1 and 0. -/
example (own : Bool) : ∃ F : Spec.RunCoins squareToy.withHistogram 2 2 2 pairDraw
      ≃ Spec.RunCoins squareToy.withHistogram 2 2 2 pairDraw,
    ∀ (w : Spec.RunCoins squareToy.withHistogram 2 2 2 pairDraw) (Q Q' : Prims),
      Q = Spec.setRun squareToy.withHistogram 2 2 2 pairDraw (!own) w →
      Q' = Spec.setRun squareToy.withHistogram 2 2 2 pairDraw (!own) (F w) →
      ∀ (kcs : Pair2 Q) (kcs' : Pair2 Q'),
      ∃ (sent sent' : List (Req × Req)) (got : List (Resp × Resp)) (out out' : Shown) (t0 t1 : Server Q)
        (t0' t1' : Server Q'),
        Spec.Hears (toyCfg 0 (some 2) .debug) (toyCfg 1 (some 2) .debug) (mainP Q .debug ⟨some 2, 2, 2, 2, 2, 2⟩
          .weightedHeavyHitters (Spec.runDraw pairDraw (fun i => i) w) 2) (.running kcs.1) (.running kcs.2) sent got
          out t0 t1 ∧
        Spec.Hears (toyCfg 0 (some 2) .debug) (toyCfg 1 (some 2) .debug) (mainP Q' .debug ⟨some 2, 2, 2, 2, 2, 2⟩
          .weightedHeavyHitters (Spec.runDraw pairDraw (fun i => 1 - i) (F w)) 2) (.running kcs'.1) (.running kcs'.2)
          sent' got out' t0' t1' ∧
        ∀ e, Spec.carried e own sent = Spec.carried e own sent' ∧
          Spec.returned e own sent got = Spec.returned e own sent' got :=
  C103_whh_partial (P := squareToy) (c0 := toyCfg 0 (some 2) .debug)
    (c1 := toyCfg 1 (some 2) .debug) (bld := .debug) (cfg := ⟨some 2, 2, 2, 2, 2, 2⟩) (draw := pairDraw) (n := 2) (d := 2)
    (weight := fun i => i) (weight' := fun i => 1 - i) own pair_sensible (by norm_num)
    (fun _ _ _ => List.length_replicate) pair_points (fun _ _ h => nomatch h) rfl rfl rfl le_rfl rfl (by decide)
    (by decide) (by norm_num) (by decide) (by decide) ⟨[], rfl, fun h => absurd rfl h⟩ (pair_fresh own) (pair_evals own)
    (by
      show ∀ p ∈ Spec.askedAt 2 2 ((Spec.runStrings 2 pairDraw 2).map some), _
      rw [pair_asked]
      decide +kernel)

/-- The same clients in attribute-based metrics. -/
example (own : Bool) : ∃ F : Spec.RunCoins squareToy.withHistogram 2 2 2 pairDraw
      ≃ Spec.RunCoins squareToy.withHistogram 2 2 2 pairDraw,
    ∀ (w : Spec.RunCoins squareToy.withHistogram 2 2 2 pairDraw) (Q Q' : Prims),
      Q = Spec.setRun squareToy.withHistogram 2 2 2 pairDraw (!own) w →
      Q' = Spec.setRun squareToy.withHistogram 2 2 2 pairDraw (!own) (F w) →
      ∀ (kcs : Pair2 Q) (kcs' : Pair2 Q'),
      ∃ (sent sent' : List (Req × Req)) (got : List (Resp × Resp)) (out out' : Shown) (t0 t1 : Server Q)
        (t0' t1' : Server Q'),
        Spec.Hears (toyCfg 0 (some 2) .debug) (toyCfg 1 (some 2) .debug) (mainP Q .debug ⟨some 2, 2, 2, 2, 2, 2⟩
          (.attributeBasedMetrics 1) (Spec.runDraw pairDraw (fun i => i) w) 2) (.running kcs.1) (.running kcs.2) sent got
          out t0 t1 ∧
        Spec.Hears (toyCfg 0 (some 2) .debug) (toyCfg 1 (some 2) .debug) (mainP Q' .debug ⟨some 2, 2, 2, 2, 2, 2⟩
          (.attributeBasedMetrics 1) (Spec.runDraw pairDraw (fun i => 1 - i) (F w)) 2) (.running kcs'.1)
          (.running kcs'.2) sent' got out' t0' t1' ∧
        ∀ e, Spec.carried e own sent = Spec.carried e own sent' ∧
          Spec.returned e own sent got = Spec.returned e own sent' got :=
  C103_abm_partial (P := squareToy) (c0 := toyCfg 0 (some 2) .debug)
    (c1 := toyCfg 1 (some 2) .debug) (bld := .debug) (cfg := ⟨some 2, 2, 2, 2, 2, 2⟩) (draw := pairDraw) (n := 2) (d := 2)
    (weight := fun i => i) (weight' := fun i => 1 - i) (num := 1) own pair_sensible (by norm_num)
    (fun _ _ _ => List.length_replicate) pair_points (fun _ _ h => nomatch h) rfl (by decide) rfl (by decide)
    (by decide) (by decide) (by decide) (pair_fresh own)
    (by
      have := pair_evals own
      rw [pair_asked] at this
      intro q i p hp
      rw [pair_paths] at hp
      exact this q i p (paths_sub hp))
    (by
      unfold Spec.abmShown
      congr 1)

/-- Two clients of plain metrics with buckets 0 and 1 or 1 and 0, and the connection to the leader. -/
example : ∃ F : (Fin 2 → Spec.HelperCoins 2 (Spec.chunk 2)) ≃ (Fin 2 → Spec.HelperCoins 2 (Spec.chunk 2)),
    ∀ (w : Fin 2 → Spec.HelperCoins 2 (Spec.chunk 2)) (Q Q' : Prims),
      Q = toy.withPrio3 (Spec.setHelpers toyXof seedsDraw w) →
      Q' = toy.withPrio3 (Spec.setHelpers toyXof seedsDraw (F w)) →
      ∀ (kcs : Pair2 Q) (kcs' : Pair2 Q'),
      ∃ (sent sent' : List (Req × Req)) (got : List (Resp × Resp)) (out out' : Shown) (t0 t1 : Server Q)
        (t0' t1' : Server Q'),
        Spec.Hears (toyCfg 0 none .debug) (toyCfg 1 none .release) (mainP Q .debug ⟨none, 2, 2, 2, 2, 2⟩ .plainMetrics
          (Spec.bucketDraw seedsDraw id) 2) (.running kcs.1) (.running kcs.2) sent got out t0 t1 ∧
        Spec.Hears (toyCfg 0 none .debug) (toyCfg 1 none .release) (mainP Q' .debug ⟨none, 2, 2, 2, 2, 2⟩ .plainMetrics
          (Spec.bucketDraw seedsDraw fun i => 1 - i) 2) (.running kcs'.1) (.running kcs'.2) sent' got out' t0' t1' ∧
        ∀ e, Spec.carried e false sent = Spec.carried e false sent' ∧
          Spec.returned e false sent got = Spec.returned e false sent' got := by
  have h := C103_leader_partial (P := toy) (X := toyXof) (c0 := toyCfg 0 none .debug) (c1 := toyCfg 1 none .release)
    (bld := .debug) (cfg := ⟨none, 2, 2, 2, 2, 2⟩) (draw := seedsDraw) (n := 2) (bucket := id)
    (bucket' := fun i => 1 - i)
    ⟨rfl, rfl, rfl, by decide, by decide, by decide, by decide, fun i _ =>
      ⟨Nat.le_add_left _ _, Nat.succ_le_of_lt (Nat.mod_lt i (by decide))⟩⟩ rfl (by norm_num)
    (fun i _ => show (3 : Field128) ^ Spec.points 2 (Spec.chunk 2) ≠ 1 by decide +kernel) rfl rfl (by decide)
    (fun _ _ => rfl) (fun i hi => hi) (fun i hi => (by omega : 1 - i < 2)) seeds_fresh rfl
  exact h

/-- The same clients and the connection to the helper. -/
example : ∃ F : (Fin 2 → Spec.LeaderCoins (Spec.chunk 2)) ≃ (Fin 2 → Spec.LeaderCoins (Spec.chunk 2)),
    ∀ (w : Fin 2 → Spec.LeaderCoins (Spec.chunk 2)) (Q Q' : Prims),
      Q = toy.withPrio3 (Spec.setLeaders toyXof 2 seedsDraw id w) →
      Q' = toy.withPrio3 (Spec.setLeaders toyXof 2 seedsDraw (fun i => 1 - i) (F w)) →
      ∀ (kcs : Pair2 Q) (kcs' : Pair2 Q'),
      ∃ (sent sent' : List (Req × Req)) (got : List (Resp × Resp)) (out out' : Shown) (t0 t1 : Server Q)
        (t0' t1' : Server Q'),
        Spec.Hears (toyCfg 0 none .debug) (toyCfg 1 none .release) (mainP Q .debug ⟨none, 2, 2, 2, 2, 2⟩ .plainMetrics
          (Spec.bucketDraw seedsDraw id) 2) (.running kcs.1) (.running kcs.2) sent got out t0 t1 ∧
        Spec.Hears (toyCfg 0 none .debug) (toyCfg 1 none .release) (mainP Q' .debug ⟨none, 2, 2, 2, 2, 2⟩ .plainMetrics
          (Spec.bucketDraw seedsDraw fun i => 1 - i) 2) (.running kcs'.1) (.running kcs'.2) sent' got out' t0' t1' ∧
        ∀ e, Spec.carried e true sent = Spec.carried e true sent' ∧
          Spec.returned e true sent got = Spec.returned e true sent' got := by
  have h := C103_helper_partial (P := toy) (X := toyXof) (c0 := toyCfg 0 none .debug) (c1 := toyCfg 1 none .release)
    (bld := .debug) (cfg := ⟨none, 2, 2, 2, 2, 2⟩) (draw := seedsDraw) (n := 2) (bucket := id)
    (bucket' := fun i => 1 - i)
    ⟨rfl, rfl, rfl, by decide, by decide, by decide, by decide, fun i _ =>
      ⟨Nat.le_add_left _ _, Nat.succ_le_of_lt (Nat.mod_lt i (by decide))⟩⟩ rfl (by norm_num)
    (fun i _ => show (3 : Field128) ^ Spec.points 2 (Spec.chunk 2) ≠ 1 by decide +kernel) rfl rfl (by decide)
    (fun _ _ => rfl) (fun i hi => hi) (fun i hi => (by omega : 1 - i < 2)) seeds_fresh rfl
  exact h

end Mastic
