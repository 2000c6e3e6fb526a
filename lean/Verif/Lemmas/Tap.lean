import Verif.Spec.Tap
import Verif.Spec.Effort
import Verif.Lemmas.Prio3Spec
import Verif.Props.Vidpf
import Verif.Props.Wire
import Verif.Lemmas.Batch
import Verif.Lemmas.Main

/-!
# What the connections carry: lemmas
-/

namespace Mastic

variable {α β : Type} {P : Prims} {bld : Build} {cfg : Config}

/-- The process can end with `a` after sending `sent`, for some answers. -/
inductive Said : Prog α → List (Req × Req) → α → Prop
  | ret (a : α) : Said (.ret a) [] a
  | ask (r0 r1 : Req) (k : Resp → Resp → Prog α) (a0 a1 : Resp) (sent : List (Req × Req)) (a : α)
      (h : Said (k a0 a1) sent a) : Said (.ask r0 r1 k) ((r0, r1) :: sent) a

theorem said_dialogue {reply : List (Req × Req) → Resp × Resp} {p : Prog α} : ∀ {got all : List (Req × Req)} {a : α},
    Spec.dialogue reply p got = (all, some a) → ∃ sent, all = got ++ sent ∧ Said p sent a := by
  induction p with
  | ret b =>
    intro got all a h
    rw [Spec.dialogue] at h
    cases h
    exact ⟨[], (List.append_nil _).symm, .ret _⟩
  | panic e => intro got all a h; cases h
  | ask r0 r1 k ih =>
    intro got all a h
    rw [Spec.dialogue] at h
    obtain ⟨sent, rfl, hs⟩ := ih _ _ h
    exact ⟨(r0, r1) :: sent, by simp, .ask _ _ _ _ _ _ _ hs⟩

theorem said_bind {p : Prog α} {f : α → Prog β} : ∀ {sent : List (Req × Req)} {b : β}, Said (p >>= f) sent b →
    ∃ x y a, sent = x ++ y ∧ Said p x a ∧ Said (f a) y b := by
  induction p with
  | ret a => intro sent b h; exact ⟨[], sent, a, rfl, .ret _, h⟩
  | panic e => intro sent b h; cases h
  | ask r0 r1 k ih =>
    intro sent b h
    cases h with
    | ask _ _ _ a0 a1 sent _ h =>
      obtain ⟨x, y, a, rfl, h1, h2⟩ := ih a0 a1 h
      exact ⟨(r0, r1) :: x, y, a, rfl, .ask _ _ _ _ _ _ _ h1, h2⟩

theorem said_lift {e : Exec α} {sent : List (Req × Req)} {a : α} (h : Said (Prog.lift e) sent a) :
    sent = [] ∧ e = .ok a := by
  cases e with
  | error e => cases h
  | ok b => cases h; exact ⟨rfl, rfl⟩

theorem said_done {r0 r1 : Req} {sent : List (Req × Req)} {a : Unit} (h : Said (callDone r0 r1) sent a) :
    sent = [(r0, r1)] := by
  unfold callDone at h
  cases h with
  | ask _ _ _ a0 a1 sent _ h => cases a0 <;> cases a1 <;> cases h <;> rfl

/-- The shares that both servers get. -/
def shareds (sent : List (Req × Req)) : List ReportShare × List ReportShare :=
  (Spec.uploads (sent.map Prod.fst), Spec.uploads (sent.map Prod.snd))

theorem shareds_append (x y : List (Req × Req)) :
    shareds (x ++ y) = ((shareds x).1 ++ (shareds y).1, (shareds x).2 ++ (shareds y).2) := by
  simp [shareds, Spec.uploads]

/-- The process uploads nothing. -/
def Mute (p : Prog α) : Prop := ∀ sent a, Said p sent a → shareds sent = ([], [])

theorem mute_ret (a : α) : Mute (.ret a) := by
  intro sent b h; cases h; rfl

theorem mute_panic (e : Panic) : Mute (.panic e : Prog α) := by
  intro sent b h; cases h

theorem mute_lift (e : Exec α) : Mute (Prog.lift e) := by
  intro sent b h; rw [(said_lift h).1]; rfl

theorem mute_bind {p : Prog α} {f : α → Prog β} (h : Mute p) (hf : ∀ a, Mute (f a)) : Mute (p >>= f) := by
  intro sent b hs
  obtain ⟨x, y, a, rfl, h1, h2⟩ := said_bind hs
  rw [shareds_append, h x a h1, hf a y b h2]
  rfl

theorem mute_ask {r0 r1 : Req} {k : Resp → Resp → Prog α} (h : shareds [(r0, r1)] = ([], [])) (hk : ∀ a b, Mute (k a b)) :
    Mute (.ask r0 r1 k) := by
  intro sent a hs
  cases hs with
  | ask _ _ _ a0 a1 sent _ hs =>
    rw [show (r0, r1) :: sent = [(r0, r1)] ++ sent from rfl, shareds_append, h, hk a0 a1 sent a hs]
    rfl

macro "mute_call" : tactic =>
  `(tactic| (intro h; refine mute_ask h fun a b => ?_; cases a <;> cases b <;> first
      | exact mute_ret _ | exact mute_panic _))

theorem mute_done {r0 r1 : Req} : shareds [(r0, r1)] = ([], []) → Mute (callDone r0 r1) := by mute_call
theorem mute_crawl {r0 r1 : Req} : shareds [(r0, r1)] = ([], []) → Mute (callCrawl r0 r1) := by mute_call
theorem mute_vecs {r0 r1 : Req} : shareds [(r0, r1)] = ([], []) → Mute (callVecs r0 r1) := by mute_call
theorem mute_proofs {r0 r1 : Req} : shareds [(r0, r1)] = ([], []) → Mute (callProofs r0 r1) := by mute_call
theorem mute_shares {r0 r1 : Req} : shareds [(r0, r1)] = ([], []) → Mute (callShares r0 r1) := by mute_call
theorem mute_validated {r0 r1 : Req} : shareds [(r0, r1)] = ([], []) → Mute (callValidated r0 r1) := by mute_call
theorem mute_bytes {r0 r1 : Req} : shareds [(r0, r1)] = ([], []) → Mute (callBytes r0 r1) := by mute_call
theorem mute_aggregate {r0 r1 : Req} : shareds [(r0, r1)] = ([], []) → Mute (callAggregate r0 r1) := by mute_call

theorem mute_flpLoop {n : Nat} : ∀ (fuel start : Nat) (keep : List Bool), Mute (flpLoopP P bld cfg n fuel start keep)
  | 0, start, keep => by
    unfold flpLoopP
    split
    exacts [mute_panic _, mute_ret _]
  | fuel + 1, start, keep => by
    unfold flpLoopP
    split
    · refine mute_bind (mute_vecs rfl) fun v => mute_bind (mute_lift _) fun _ => mute_bind (mute_lift _) fun ks => ?_
      exact mute_flpLoop fuel _ _
    · exact mute_ret _

theorem mute_levelLoop {n : Nat} : ∀ (fuel : Nat) (req : CrawlReq), Mute (levelLoopP cfg n fuel req)
  | 0, req => mute_panic _
  | fuel + 1, req => by
    rw [levelLoopP]
    refine mute_bind (mute_crawl rfl) fun r => mute_bind (mute_lift _) fun _ => mute_bind (mute_lift _) fun keep => ?_
    split
    · exact mute_ret _
    · refine mute_bind (mute_lift _) fun mal => ?_
      split
      · exact mute_ret _
      · split
        · split
          · exact mute_ret _
          · exact mute_levelLoop fuel _
        · exact mute_levelLoop fuel _

theorem mute_proofLoop {n : Nat} : ∀ (fuel start : Nat), Mute (proofLoopP cfg n fuel start)
  | 0, start => by
    unfold proofLoopP
    split
    exacts [mute_panic _, mute_ret _]
  | fuel + 1, start => by
    unfold proofLoopP
    split
    · refine mute_bind (mute_proofs rfl) fun v => mute_bind (mute_lift _) fun _ => mute_bind (mute_lift _) fun _ => ?_
      exact mute_proofLoop fuel _
    · exact mute_ret _

theorem mute_levels {n : Nat} : ∀ ls : List Nat, Mute (levelsP P bld cfg n ls)
  | [] => mute_ret _
  | l :: ls => by
    have e : levelsP P bld cfg n (l :: ls) = ((if l = 0 then flpP P bld cfg n else .ret ()) >>= fun _ =>
        levelP cfg n >>= fun _ => levelsP P bld cfg n ls) := by
      rw [levelsP]
      split <;> rfl
    rw [e]
    refine mute_bind ?_ fun _ => mute_bind ?_ fun _ => mute_levels ls
    · split
      · exact mute_bind (mute_flpLoop _ _ _) fun _ => mute_done rfl
      · exact mute_ret _
    · exact mute_bind (mute_levelLoop _ _) fun _ => mute_done rfl

theorem mute_whh {n : Nat} : Mute (whhP P bld cfg n) := by
  unfold whhP
  refine mute_bind (mute_done rfl) fun _ => mute_bind (mute_lift _) fun _ => mute_bind (mute_levels _) fun _ => ?_
  unfold levelLastP
  exact mute_bind (mute_vecs rfl) fun _ => mute_bind (mute_lift _) fun _ => mute_bind (mute_lift _) fun _ =>
    mute_bind (mute_proofLoop _ _) fun _ => mute_bind (mute_done rfl) fun _ => mute_bind (mute_shares rfl) fun _ =>
    mute_bind (mute_lift _) fun _ => mute_bind (mute_lift _) fun _ => mute_bind (mute_lift _) fun _ => mute_ret _

theorem mute_abmLoop {attrs : List (List Bool)} : ∀ rs : List (Nat × Nat), Mute (abmLoopP P cfg attrs rs)
  | [] => mute_ret _
  | r :: rs => by
    rw [abmLoopP]
    refine mute_bind ?_ fun _ => mute_bind (mute_abmLoop rs) fun _ => mute_ret _
    unfold abmBatchP
    exact mute_bind (mute_validated rfl) fun _ => mute_bind (mute_lift _) fun _ => mute_bind (mute_lift _) fun _ =>
      mute_bind (mute_lift _) fun _ => mute_bind (mute_vecs rfl) fun _ => mute_ret _

theorem mute_pmLoop : ∀ rs : List (Nat × Nat), Mute (pmLoopP P cfg rs)
  | [] => mute_ret _
  | r :: rs => by
    rw [pmLoopP]
    refine mute_bind ?_ fun _ => mute_bind (mute_pmLoop rs) fun _ => mute_ret _
    unfold pmBatchP
    exact mute_bind (mute_bytes rfl) fun _ => mute_bind (mute_lift _) fun _ => mute_bind (mute_lift _) fun _ =>
      mute_bind (mute_aggregate rfl) fun _ => mute_bind (mute_lift _) fun _ => mute_bind (mute_lift _) fun _ => mute_ret _

theorem mute_collect {mode : DriverMode} {draw : MainDraw} {n : Nat} {reports : List PlaintextReport} :
    Mute (collectP P bld cfg mode draw n reports) := by
  cases mode with
  | weightedHeavyHitters => exact mute_whh
  | attributeBasedMetrics num =>
    exact mute_bind (mute_lift _) fun _ => mute_bind (mute_lift _) fun _ => mute_bind (mute_abmLoop _) fun _ => mute_ret _
  | plainMetrics =>
    unfold collectP
    dsimp only
    split
    · exact mute_panic _
    · exact mute_bind (mute_lift _) fun _ => mute_bind (mute_pmLoop _) fun _ => mute_ret _

/-- The upload sends the shares of all picks in order. -/
theorem said_await {reports : List PlaintextReport} : ∀ {bs : List (List (Nat × Option Tamper))}
    {sent : List (Req × Req)} {a : Unit}, Said (awaitAllP reports bs) sent a →
    ∃ sh, mapE (pickShares reports) bs.flatten = .ok sh ∧ shareds sent = (sh.map Prod.fst, sh.map Prod.snd)
  | [], sent, a, h => by cases h; exact ⟨[], rfl, rfl⟩
  | b :: bs, sent, a, h => by
    rw [awaitAllP] at h
    obtain ⟨x, y, u, rfl, h1, h2⟩ := said_bind h
    unfold addReportsP at h1
    obtain ⟨x1, x2, sh1, rfl, g1, g2⟩ := said_bind h1
    obtain ⟨rfl, e1⟩ := said_lift g1
    replace e1 : mapE (pickShares reports) b = .ok sh1 := e1
    rw [said_done g2]
    obtain ⟨sh2, e2, hs2⟩ := said_await h2
    refine ⟨sh1 ++ sh2, ?_, ?_⟩
    · rw [List.flatten_cons, mapE_append, e1, ok_bind, e2, ok_bind]
    · rw [shareds_append, hs2]
      simp [shareds, Spec.uploads]

theorem batchRound_sum (b : Nat) : ∀ (k left : Nat), (batchRound b k left).1.sum + (batchRound b k left).2 = left
  | 0, left => by simp [batchRound]
  | k + 1, left => by
    have := batchRound_sum b k (left - min left b)
    rw [batchRound]
    split
    · rw [List.sum_cons]; omega
    · omega

theorem uploadBatches_total {b : Nat} : ∀ {fuel left : Nat} {sizes : List Nat}, uploadBatches b fuel left = .ok sizes →
    sizes.sum = left
  | fuel, 0, sizes, h => by
    have : uploadBatches b fuel 0 = .ok [] := by cases fuel <;> rfl
    rw [this] at h
    cases h; rfl
  | 0, left + 1, sizes, h => by cases h
  | fuel + 1, left + 1, sizes, h => by
    rw [uploadBatches] at h
    obtain ⟨rest, hr, h⟩ := bind_eq_ok.1 h
    cases h
    have := batchRound_sum b 1000 (left + 1)
    rw [List.sum_append, uploadBatches_total hr]
    omega

/-- The shares of a whole run. -/
theorem said_main {mode : DriverMode} {draw : MainDraw} {n : Nat} {sent : List (Req × Req)} {out : Shown}
    (h : Said (mainP P bld cfg mode draw n) sent out) :
    ∃ reports sh, generateReports P cfg mode draw.reports = .ok reports ∧
      mapE (pickShares reports) ((List.range n).map draw.picks) = .ok sh ∧
      shareds sent = (sh.map Prod.fst, sh.map Prod.snd) := by
  unfold mainP at h
  obtain ⟨x1, y1, u1, rfl, h1, g1⟩ := said_bind h
  obtain ⟨rfl, -⟩ := said_lift h1
  split at g1
  · cases g1
  obtain ⟨x2, y2, reports, rfl, h2, g2⟩ := said_bind g1
  obtain ⟨rfl, e2⟩ := said_lift h2
  obtain ⟨x3, y3, u3, rfl, h3, g3⟩ := said_bind g2
  have e3 := said_done h3
  obtain ⟨x4, y4, u4, rfl, h4, g4⟩ := said_bind g3
  unfold mainUploadP at h4
  split at h4
  · cases h4
  unfold uploadP at h4
  obtain ⟨x5, y5, sizes, rfl, h5, g5⟩ := said_bind h4
  obtain ⟨rfl, e5⟩ := said_lift h5
  obtain ⟨sh, hsh, hsent⟩ := said_await g5
  rw [splitBatches_flatten _ _ (uploadBatches_total e5)] at hsh
  refine ⟨reports, sh, e2, hsh, ?_⟩
  rw [List.nil_append, List.nil_append, List.nil_append, shareds_append, shareds_append, hsent, mute_collect _ _ g4, e3]
  simp [shareds, Spec.uploads]

/-- Every message can be read back. -/
theorem overheard_carried {e : IntEnc} {own : Bool} {sent : List (Req × Req)}
    (h : ∀ r ∈ sent, Spec.reqFits (Pair.get r own) = true) :
    Spec.overheard e (Spec.carried e own sent) = Pair.get (shareds sent) own := by
  have : ∀ rs : List Req, (∀ r ∈ rs, Spec.reqFits r = true) →
      (rs.map (reqCodec e).enc).filterMap (fun m => ((reqCodec e).dec m).map Prod.fst) = rs := by
    intro rs hr
    induction rs with
    | nil => rfl
    | cons r rs ih =>
      have := C77_request e r (hr r (by simp)) []
      rw [List.append_nil] at this
      rw [List.map_cons, List.filterMap_cons, this]
      simp only [Option.map_some]
      rw [ih fun r hm => hr r (by simp [hm])]
  unfold Spec.overheard Spec.carried
  rw [this _ (by
    intro r hr
    obtain ⟨x, hx, rfl⟩ := List.mem_map.1 hr
    exact h x hx)]
  cases own <;> rfl

/-- The report behind the shares of a client. -/
theorem picked_report {mode : DriverMode} {draw : MainDraw} {n : Nat} {reports : List PlaintextReport}
    {sh : List (ReportShare × ReportShare)} (hg : generateReports P cfg mode draw.reports = .ok reports)
    (hs : mapE (pickShares reports) ((List.range n).map draw.picks) = .ok sh) {i : Nat} (hi : i < n) (hi' : i < sh.length) :
    ∃ rep, generateReport P cfg mode (Spec.MainDraw.of draw i) = .ok rep ∧ pickShares [rep] (1, (draw.picks i).2) = .ok sh[i] := by
  have h := mapE_getElem hs i (by simpa using hi) hi'
  rw [List.getElem_map, List.getElem_range] at h
  unfold generateReports at hg
  obtain ⟨u, -, hg⟩ := bind_eq_ok.1 hg
  obtain ⟨reps, hr, hg⟩ := bind_eq_ok.1 hg
  obtain ⟨v, -, hg⟩ := bind_eq_ok.1 hg
  cases hg
  unfold pickShares at h
  split at h
  · cases h
  obtain ⟨rep, hx, h⟩ := bind_eq_ok.1 h
  obtain ⟨hl, rfl⟩ := List.getElem?_eq_some_iff.1 (idx_eq_ok.1 hx)
  have hrep := mapE_getElem hr ((draw.picks i).1 - 1) (by rw [← mapE_length hr]; exact hl) hl
  rw [List.getElem_range] at hrep
  refine ⟨_, hrep, ?_⟩
  unfold pickShares
  rw [if_neg (by simp)]
  exact h

/-- The shares of a client in the modes with strings. -/
theorem picked_mastic {mode : DriverMode} {draw : ReportDraw} {d : Nat} {rep : PlaintextReport} {t : Option Tamper}
    {s : ReportShare × ReportShare} (hm : mode ≠ .plainMetrics) (hd : cfg.dataBits = some d)
    (hg : generateReport P cfg mode draw = .ok rep) (hp : pickShares [rep] (1, t) = .ok s) :
    ∃ nonce p0 p1 j0 j1 rs beta, encodeMeasurement cfg.histBuckets (draw.bucket % cfg.histBuckets) = some beta ∧
      s = (.mastic nonce (VidpfKey.gen P rs (Spec.stringOf d draw) beta).1 p0 j0,
        .mastic nonce (VidpfKey.gen P rs (Spec.stringOf d draw) beta).2 p1 j1) := by
  unfold generateReport at hg
  obtain ⟨b, hb, hg⟩ := bind_eq_ok.1 hg
  unfold genRange at hb
  split at hb
  · cases hb
  cases hb
  have hg' : (unwrapO cfg.dataBits >>= fun d => genMasticReport P cfg.histBuckets (sampleBits d draw.bits)
      (draw.bucket % cfg.histBuckets) draw.rand) = .ok rep := by
    cases mode with
    | plainMetrics => exact absurd rfl hm
    | weightedHeavyHitters => exact hg
    | attributeBasedMetrics num => exact hg
  rw [hd] at hg'
  replace hg' : genMasticReport P cfg.histBuckets (sampleBits d draw.bits) (draw.bucket % cfg.histBuckets) draw.rand
    = .ok rep := hg'
  unfold genMasticReport at hg'
  obtain ⟨beta, hbeta, hg'⟩ := bind_eq_ok.1 hg'
  obtain ⟨proof, -, hg'⟩ := bind_eq_ok.1 hg'
  cases hg'
  have hbeta' : encodeMeasurement cfg.histBuckets (draw.bucket % cfg.histBuckets) = some beta := by
    unfold unwrapO at hbeta
    split at hbeta
    · next e => cases hbeta; exact e
    · cases hbeta
  unfold pickShares at hp
  rw [if_neg (by simp)] at hp
  obtain ⟨rep, hx, hp⟩ := bind_eq_ok.1 hp
  cases hx
  cases t with
  | none =>
    cases hp
    exact ⟨_, _, _, _, _, _, beta, hbeta', rfl⟩
  | some t =>
    obtain ⟨s1, ht, hp⟩ := bind_eq_ok.1 hp
    cases hp
    cases t with
    | key =>
      cases ht
      exact ⟨_, _, _, _, _, _, beta, hbeta', rfl⟩
    | flp =>
      obtain ⟨p, -, ht⟩ := bind_eq_ok.1 ht
      cases ht
      exact ⟨_, _, _, _, _, _, beta, hbeta', rfl⟩

theorem tapString_gen {rs : Block × Block} {alpha : List Bool} {beta : List Field128} {nonce : Block}
    {p : List Field128} {j : Block × Block} (own : Bool) :
    Spec.tapString (.mastic nonce (Pair.get (VidpfKey.gen P rs alpha beta) own) p j) = alpha := by
  have h : (Pair.get (VidpfKey.gen P rs alpha beta) own).corWords
      = (genLoop P beta alpha [] (false, true) rs).1 := by cases own <;> rfl
  simp only [Spec.tapString, h]
  exact genLoop_bits P beta alpha _ _ _

/-- The position of the 1 in an encoded weight. -/
theorem idxOf_encoded {n b : Nat} {beta : List Field128} (h : encodeMeasurement n b = some beta) (tl : List Field128) :
    (beta ++ tl).idxOf 1 = b := by
  unfold encodeMeasurement at h
  split at h
  · rename_i hb
    cases h
    clear * - hb
    induction b generalizing n with
    | zero =>
      obtain ⟨m, rfl⟩ : ∃ m, n = m + 1 := ⟨n - 1, by omega⟩
      simp [List.replicate_succ]
    | succ b ih =>
      obtain ⟨m, rfl⟩ : ∃ m, n = m + 1 := ⟨n - 1, by omega⟩
      have h01 : (0 : Field128) ≠ 1 := zero_ne_one
      rw [List.replicate_succ, List.set_cons_succ, List.cons_append, List.idxOf_cons_ne _ h01, ih (by omega)]
  · cases h

theorem tapWeight_gen {n b : Nat} {rs : Block × Block} {alpha : List Bool} {beta : List Field128} {nonce : Block}
    {p0 p1 : List Field128} {j0 j1 : Block × Block} (hb : encodeMeasurement n b = some beta) (ha : alpha ≠ []) :
    Spec.tapWeight P n (.mastic nonce (VidpfKey.gen P rs alpha beta).1 p0 j0,
      .mastic nonce (VidpfKey.gen P rs alpha beta).2 p1 j1) = some b := by
  obtain ⟨o0, l0, q0, o1, l1, q1, e0, e1, n0, n1, hz⟩ := C01_shares_reconstruct P .release .release rs alpha beta alpha
    Block.zero Block.zero ha le_rfl
  rw [(encodeMeasurement_length hb).1] at e0 e1
  have ht : Spec.tapString (.mastic nonce (VidpfKey.gen P rs alpha beta).1 p0 j0) = alpha := tapString_gen false
  unfold Spec.tapWeight
  dsimp only
  rw [ht, e0, e1]
  have hl : alpha.length - 1 < alpha.length := by
    have := List.length_pos_iff.2 ha
    omega
  have hlast : Spec.addShares l0 l1 = beta ++ [1] := by
    have h0 := congrArg (fun l => l[alpha.length - 1]?) hz
    simp only [List.getElem?_zipWith, List.getElem?_map, List.getElem?_range hl] at h0
    rw [show alpha.length - 1 = o0.length by omega, List.getElem?_concat_length, show o0.length = o1.length by omega,
      List.getElem?_concat_length, Option.map_some, show o1.length + 1 = alpha.length by omega,
      List.take_length] at h0
    simpa [Spec.pointValue] using h0
  simp only [Spec.tapPosition]
  rw [hlast, idxOf_encoded hb]

/-- The bucket of a plain-metrics client. -/
theorem picked_prio3 {X : Prio3Xof} {draw : ReportDraw} {rep : PlaintextReport} {s : ReportShare × ReportShare}
    (hg : generateReport (P.withPrio3 X) cfg .plainMetrics draw = .ok rep) (hp : pickShares [rep] (1, none) = .ok s) :
    Spec.tapBucket X cfg.histBuckets s = some (draw.bucket % cfg.histBuckets) := by
  unfold generateReport at hg
  obtain ⟨b, hb, hg⟩ := bind_eq_ok.1 hg
  unfold genRange at hb
  split at hb
  · cases hb
  cases hb
  cases hp
  obtain ⟨nonce, pub, in0, in1, s, q, b1, b0, x, pr, proof, h0, h1, hm⟩ := honest_made (s0 := rep.toShares.1)
    (s1 := rep.toShares.2) ⟨_, _, rep, hg, rfl⟩
  rw [show rep.toShares = (rep.toShares.1, rep.toShares.2) from rfl, h0, h1]
  obtain ⟨hx, hpl, hsx, hsp⟩ := hm.shares
  unfold Spec.tapBucket
  dsimp only
  rw [hm.in0_eq, hm.in1_eq, readInput_leader X (by simp [hx]) (by simp [hpl]), readInput_helper]
  simp only [Spec.tapPosition]
  have := idxOf_encoded hm.enc []
  rw [List.append_nil] at this
  rw [hsx.2.2, this]

end Mastic
