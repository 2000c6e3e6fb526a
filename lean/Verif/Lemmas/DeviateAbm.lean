import Verif.Lemmas.Deviate
import Verif.Lemmas.AbmReplies

/-!
# Lemmas: what a lying server is asked in two runs
-/

namespace Mastic

variable {P Q Q' : Prims} {α β : Type} {c0 c1 : ServerCfg}

/-- Whatever the lying server answers, it gets the same requests from two processes. -/
def SameTold (b : Bool) (c : ServerCfg) (s : Server Q) (p : Prog α) (s' : Server Q') (p' : Prog α) : Prop :=
  ∀ (lie : List Req → Resp) (got : List Req), (Spec.against b c lie p s got).1 = (Spec.against b c lie p' s' got).1

theorem same_ret (b : Bool) (c : ServerCfg) (s : Server Q) (s' : Server Q') (a a' : α) :
    SameTold b c s (.ret a) s' (.ret a') := fun _ _ => rfl

theorem same_panic (b : Bool) (c : ServerCfg) (s : Server Q) (s' : Server Q') (e e' : Panic) :
    SameTold b c s (.panic e : Prog α) s' (.panic e') := fun _ _ => rfl

theorem same_lift {b : Bool} {c : ServerCfg} {s : Server Q} {s' : Server Q'} {γ : Type} {e : Exec γ} {f f' : γ → Prog α}
    (h : ∀ a, e = .ok a → SameTold b c s (f a) s' (f' a)) :
    SameTold b c s (Prog.lift e >>= f) s' (Prog.lift e >>= f') := by
  cases e with
  | ok a => exact h a rfl
  | error e => exact same_panic b c s s' e e

theorem same_ok {b : Bool} {c : ServerCfg} {s : Server Q} {s' : Server Q'} {γ γ' : Type} {e : Exec γ} {e' : Exec γ'}
    {f : γ → Prog α} {f' : γ' → Prog α} {a : γ} {a' : γ'} (he : e = .ok a) (he' : e' = .ok a')
    (h : SameTold b c s (f a) s' (f' a')) : SameTold b c s (Prog.lift e >>= f) s' (Prog.lift e' >>= f') := by
  subst he he'
  exact h

/-- Both runs go on after the same answer, or neither does. -/
theorem same_ask {b : Bool} {c : ServerCfg} {s : Server Q} {s' : Server Q'} {r0 r1 r0' r1' : Req}
    {k k' : Resp → Resp → Prog α} (hr : Pair.get (r0, r1) b = Pair.get (r0', r1') b)
    (h : (∃ t t' e e', s.handle c (Pair.get (r0, r1) !b) = (t, .error e) ∧
        s'.handle c (Pair.get (r0', r1') !b) = (t', .error e')) ∨
      ∃ t t' a a', s.handle c (Pair.get (r0, r1) !b) = (t, .ok a) ∧
        s'.handle c (Pair.get (r0', r1') !b) = (t', .ok a') ∧
        ∀ l, SameTold b c t (k (if b then a else l) (if b then l else a)) t' (k' (if b then a' else l) (if b then l else a'))) :
    SameTold b c s (.ask r0 r1 k) s' (.ask r0' r1' k') := by
  intro lie got
  rw [Spec.against, Spec.against]
  rcases h with ⟨t, t', e, e', h1, h2⟩ | ⟨t, t', a, a', h1, h2, h⟩
  · rw [h1, h2, hr]
  · rw [h1, h2, ← hr]
    exact h _ _ _

theorem same_done {b : Bool} {c : ServerCfg} {s t : Server Q} {s' t' : Server Q'} {r0 r1 r0' r1' : Req}
    {f f' : Unit → Prog α} (hr : Pair.get (r0, r1) b = Pair.get (r0', r1') b)
    (h1 : s.handle c (Pair.get (r0, r1) !b) = (t, .ok .done))
    (h2 : s'.handle c (Pair.get (r0', r1') !b) = (t', .ok .done))
    (h : SameTold b c t (f ()) t' (f' ())) :
    SameTold b c s (callDone r0 r1 >>= f) s' (callDone r0' r1' >>= f') := by
  refine same_ask hr (.inr ⟨t, t', _, _, h1, h2, fun l => ?_⟩)
  cases b
  · cases l <;> first | exact h | exact same_panic _ _ _ _ _ _
  · cases l <;> first | exact h | exact same_panic _ _ _ _ _ _

/-! ### The upload -/

theorem length_splitBatches {α : Type} : ∀ (sizes : List Nat) (l : List α), (splitBatches sizes l).length = sizes.length
  | [], _ => rfl
  | s :: ss, l => by rw [splitBatches, List.length_cons, length_splitBatches ss, List.length_cons]

theorem same_await (b : Bool) {reports reports' : List PlaintextReport} : ∀ {bs bs' : List (List (Nat × Option Tamper))}
    {kcs k : Pair2 Q} {kcs' k' : Pair2 Q'} {x x' : List (Req × Req)} {u u' : Unit} {f f' : Unit → Prog α},
    Tells c0 c1 (awaitAllP reports bs) kcs x u k → Tells c0 c1 (awaitAllP reports' bs') kcs' x' u' k' →
    bs.length = bs'.length → Spec.received b x = Spec.received b x' →
    SameTold b (Pair.get (c0, c1) !b) (.running (Pair.get k !b)) (f ()) (.running (Pair.get k' !b)) (f' ()) →
    SameTold b (Pair.get (c0, c1) !b) (.running (Pair.get kcs !b)) (awaitAllP reports bs >>= f)
      (.running (Pair.get kcs' !b)) (awaitAllP reports' bs' >>= f')
  | [], [], _, _, _, _, _, _, _, _, _, _, h, h', _, _, hf => by
    obtain ⟨rfl, rfl, -⟩ := tells_ret h
    obtain ⟨rfl, rfl, -⟩ := tells_ret h'
    exact hf
  | c :: cs, c' :: cs', kcs, k, kcs', k', x, x', u, u', f, f', h, h', hl, hx, hf => by
    rw [awaitAllP] at h h' ⊢
    rw [awaitAllP]
    obtain ⟨x1, y1, v, q1, rfl, h1, g1⟩ := tells_bind h
    obtain ⟨x1', y1', v', q1', rfl, h1', g1'⟩ := tells_bind h'
    unfold addReportsP at h1 h1' ⊢
    obtain ⟨x2, y2, sh, q2, rfl, h2, g2⟩ := tells_bind h1
    obtain ⟨x2', y2', sh', q2', rfl, h2', g2'⟩ := tells_bind h1'
    obtain ⟨rfl, rfl, e2⟩ := tells_lift h2
    obtain ⟨rfl, rfl, e2'⟩ := tells_lift h2'
    obtain ⟨rfl, hd⟩ := tells_doneCall g2
    obtain ⟨rfl, hd'⟩ := tells_doneCall g2'
    rw [prog_bind_assoc, prog_bind_assoc, prog_bind_assoc, prog_bind_assoc]
    refine same_ok e2 e2' ?_
    have hx : Pair.get (Req.addReportShares (sh.map Prod.fst), Req.addReportShares (sh.map Prod.snd)) b
        :: Spec.received b y1 = Pair.get (Req.addReportShares (sh'.map Prod.fst), Req.addReportShares (sh'.map Prod.snd)) b
        :: Spec.received b y1' := by simpa [Spec.received] using hx
    obtain ⟨hr, hx⟩ := List.cons.inj hx
    exact same_done hr (hd (!b)) (hd' (!b)) (same_await b g1 g1' (by simpa using hl) hx hf)
  | [], _ :: _, _, _, _, _, _, _, _, _, _, _, _, _, hl, _, _ => by simp at hl
  | _ :: _, [], _, _, _, _, _, _, _, _, _, _, _, _, hl, _, _ => by simp at hl

/-- Two runs that give the lying server the same shares. -/
theorem same_main (b : Bool) {bld : Build} {cfg : Config} {mode : DriverMode} {draw draw' : MainDraw} {n : Nat}
    {kcs : Pair2 Q} {kcs' : Pair2 Q'} {reports reports' : List PlaintextReport}
    {sh sh' : List (ReportShare × ReportShare)} {sizes : List Nat}
    (hs : Spec.Sensible Q cfg draw n) (hg : generateReports Q cfg mode draw.reports = .ok reports)
    (hp : mapE (pickShares reports) ((List.range n).map draw.picks) = .ok sh)
    (hs' : Spec.Sensible Q' cfg draw' n) (hg' : generateReports Q' cfg mode draw'.reports = .ok reports')
    (hp' : mapE (pickShares reports') ((List.range n).map draw'.picks) = .ok sh')
    (hsz : uploadBatches cfg.addBatch n n = .ok sizes) (hvk : draw.verifyKey = draw'.verifyKey)
    (hsh : (sh.map fun s => Pair.get s b) = sh'.map fun s => Pair.get s b)
    (hc : SameTold b (Pair.get (c0, c1) !b)
      (.running (Pair.get (uploaded Q c0 c1 cfg draw.verifyKey sh) !b)) (collectP Q bld cfg mode draw n reports)
      (.running (Pair.get (uploaded Q' c0 c1 cfg draw'.verifyKey sh') !b)) (collectP Q' bld cfg mode draw' n reports')) :
    SameTold b (Pair.get (c0, c1) !b) (.running (Pair.get kcs !b)) (mainP Q bld cfg mode draw n)
      (.running (Pair.get kcs' !b)) (mainP Q' bld cfg mode draw' n) := by
  have parts : ∀ {Q : Prims} {draw : MainDraw} {kcs : Pair2 Q} {reports : List PlaintextReport}
      {sh : List (ReportShare × ReportShare)}, Spec.Sensible Q cfg draw n →
      mapE (pickShares reports) ((List.range n).map draw.picks) = .ok sh →
      Tells c0 c1 (resetP cfg draw.verifyKey) kcs
        [(.reset draw.verifyKey cfg.histBuckets, .reset draw.verifyKey cfg.histBuckets)] ()
        (KeyCollection.new Q cfg.histBuckets c0.serverId c0.dataBits draw.verifyKey,
          KeyCollection.new Q cfg.histBuckets c1.serverId c1.dataBits draw.verifyKey) ∧
      Tells c0 c1 (awaitAllP reports (splitBatches sizes ((List.range n).map draw.picks)))
        (KeyCollection.new Q cfg.histBuckets c0.serverId c0.dataBits draw.verifyKey,
          KeyCollection.new Q cfg.histBuckets c1.serverId c1.dataBits draw.verifyKey)
        ((splitBatches sizes sh).map addSent) () (uploaded Q c0 c1 cfg draw.verifyKey sh) := by
    intro Q draw kcs reports sh hs hp
    have hr := main_reset (c0 := c0) (c1 := c1) (kcs := kcs) hs
    have hu := main_upload (c0 := c0) (c1 := c1) hs hp
    obtain ⟨s1, h1⟩ := tells_exec (p := resetP cfg draw.verifyKey) (kcs := kcs) (by rw [exec_reset, hr, ok_bind])
    obtain ⟨s2, h2⟩ := tells_exec (p := mainUploadP cfg draw reports n) (c0 := c0) (c1 := c1)
      (kcs := (KeyCollection.new Q cfg.histBuckets c0.serverId c0.dataBits draw.verifyKey,
        KeyCollection.new Q cfg.histBuckets c1.serverId c1.dataBits draw.verifyKey)) (a := ())
      (kcs' := uploaded Q c0 c1 cfg draw.verifyKey sh) (by
        unfold mainUploadP mainUpload at *
        rw [if_neg (by simp [hs.zipf])] at hu ⊢
        rw [exec_upload, hu, ok_bind])
    obtain rfl := tells_done h1
    refine ⟨h1, ?_⟩
    unfold mainUploadP uploadP at h2
    rw [if_neg (by simp [hs.zipf]), List.length_map, List.length_range] at h2
    obtain ⟨x, y, sz, k1, rfl, g1, g2⟩ := tells_bind h2
    obtain ⟨rfl, rfl, e⟩ := tells_lift g1
    rw [hsz] at e
    cases e
    obtain rfl := tells_await hp g2
    exact g2
  obtain ⟨r1, u1⟩ := parts (kcs := kcs) hs hp
  obtain ⟨r2, u2⟩ := parts (kcs := kcs') hs' hp'
  unfold resetP at r1 r2
  obtain ⟨-, d1⟩ := tells_doneCall r1
  obtain ⟨-, d2⟩ := tells_doneCall r2
  unfold mainP
  simp only [hs.hist, hs'.hist, Bool.not_true, Bool.false_eq_true, if_false]
  refine same_ok (a := ()) (a' := ()) (by simp [assertE, hs.malicious]) (by simp [assertE, hs'.malicious]) ?_
  refine same_ok hg hg' ?_
  unfold resetP
  refine same_done (by rw [hvk]) (d1 (!b)) (d2 (!b)) ?_
  unfold mainUploadP uploadP
  rw [if_neg (by simp [hs.zipf]), if_neg (by simp [hs'.zipf]), prog_bind_assoc, prog_bind_assoc]
  rw [List.length_map, List.length_range, List.length_map, List.length_range]
  refine same_ok hsz hsz ?_
  refine same_await b u1 u2 (by rw [length_splitBatches, length_splitBatches]) ?_ hc
  have key : ∀ (sh : List (ReportShare × ReportShare)), Spec.received b ((splitBatches sizes sh).map addSent)
      = (splitBatches sizes (sh.map fun s => Pair.get s b)).map Req.addReportShares := by
    intro sh
    rw [splitBatches_map]
    cases b <;> simp [Spec.received, addSent, Pair.get, Function.comp_def]
  rw [key, key, hsh]

/-! ### Attribute-based metrics -/

theorem keys_insert {α β : Type} : ∀ {m : List (Nat × α)} {m' : List (Nat × β)} (k : Nat) (v : α) (v' : β),
    m.map Prod.fst = m'.map Prod.fst → (mapInsert m k v).map Prod.fst = (mapInsert m' k v').map Prod.fst
  | [], [], _, _, _, _ => rfl
  | [], _ :: _, _, _, _, h => by simp at h
  | _ :: _, [], _, _, _, h => by simp at h
  | (a, x) :: m, (a', x') :: m', k, v, v', h => by
    obtain ⟨rfl, hm⟩ : a = a' ∧ m.map Prod.fst = m'.map Prod.fst := by simpa using h
    unfold mapInsert
    split
    · simp [hm]
    · simp [keys_insert k v v' hm]

theorem keys_remove {α β : Type} (k : Nat) : ∀ {m : List (Nat × α)} {m' : List (Nat × β)},
    m.map Prod.fst = m'.map Prod.fst → (mapRemove m k).1.isSome = (mapRemove m' k).1.isSome ∧
      (mapRemove m k).2.map Prod.fst = (mapRemove m' k).2.map Prod.fst
  | [], [], _ => ⟨rfl, rfl⟩
  | [], _ :: _, h => by simp at h
  | _ :: _, [], h => by simp at h
  | (a, x) :: m, (a', x') :: m', h => by
    obtain ⟨rfl, hm⟩ : a = a' ∧ m.map Prod.fst = m'.map Prod.fst := by simpa using h
    unfold mapRemove
    split
    · exact ⟨rfl, hm⟩
    · obtain ⟨h1, h2⟩ := keys_remove k hm
      exact ⟨h1, by simp [h2]⟩

theorem keys_foldl {V V' : Nat → List (List Field128)} : ∀ (l : List Nat) {m m' : List (Nat × List (List Field128))},
    m.map Prod.fst = m'.map Prod.fst →
    (l.foldl (fun m i => mapInsert m i (V i)) m).map Prod.fst = (l.foldl (fun m i => mapInsert m i (V' i)) m').map Prod.fst
  | [], _, _, h => h
  | i :: l, _, _, h => keys_foldl l (keys_insert i (V i) (V' i) h)

/-- Whether the rejections go through depends on the stored indices only. -/
theorem keys_reject {bld : Build} : ∀ (rej : List Nat) {m m' : List (Nat × List (List Field128))},
    m.map Prod.fst = m'.map Prod.fst →
    (∃ e e', abmReject bld m rej = .error e ∧ abmReject bld m' rej = .error e') ∨
    ∃ x x', abmReject bld m rej = .ok x ∧ abmReject bld m' rej = .ok x' ∧ x.map Prod.fst = x'.map Prod.fst := by
  cases bld with
  | release => exact fun rej m m' h => .inr ⟨m, m', rfl, rfl, h⟩
  | debug =>
    intro rej
    induction rej with
    | nil => exact fun h => .inr ⟨_, _, rfl, rfl, h⟩
    | cons i rej ih =>
      intro m m' h
      obtain ⟨h1, h2⟩ := keys_remove i h
      have step : ∀ m : List (Nat × List (List Field128)), abmReject .debug m (i :: rej) = match mapRemove m i with
          | (some _, m') => abmReject .debug m' rej
          | (none, _) => .error .debugAssertion := by
        intro m
        unfold abmReject
        rw [foldE]
        rcases mapRemove m i with ⟨_ | _, m'⟩ <;> rfl
      rw [step, step]
      rcases e : mapRemove m i with ⟨o, m1⟩
      rcases e' : mapRemove m' i with ⟨o', m1'⟩
      rw [e, e'] at h1 h2
      cases o with
      | none =>
        cases o' with
        | none => exact .inl ⟨_, _, rfl, rfl⟩
        | some _ => cases h1
      | some _ =>
        cases o' with
        | none => cases h1
        | some _ => exact ih h2

theorem side_validate {kc : KeyCollection P} {attrs : List (List Bool)} {N : Nat} {V : Nat → List (List Field128)}
    {q : Nat → List Field128} {dg : Nat → Vector Byte 32} (h : AbmSide kc attrs N V q dg) {s e : Nat}
    (hs : s ≤ e) (he : e ≤ N) :
    srvAbmValidate kc attrs s e = .ok ({ kc with abmState := (rangeFrom s e).foldl (fun m i => mapInsert m i (V i)) kc.abmState },
      (rangeFrom s e).map fun i => (q i, dg i)) := by
  unfold srvAbmValidate withCapacity
  rw [if_pos hs, ok_bind]
  have : mapE (abmValidateClient kc attrs) (rangeFrom s e) =
      .ok ((rangeFrom s e).map fun i => (i, V i, q i, dg i)) := by
    rw [mapE_eq_ok_iff_getElem]
    refine ⟨by simp, fun j i hj => ⟨_, ?_, h i ?_⟩⟩
    · rw [List.getElem?_map, hj]; rfl
    · have := (rangeFrom_mem.1 (List.mem_of_getElem? hj)).2
      omega
  rw [this]
  simp only [ok_bind, List.map_map, List.foldl_map]
  rfl

/-- The batches of attribute-based metrics: the lying server is told which clients are rejected, and that depends on the
verifier shares and digests of the other server only. -/
theorem same_abmLoop (b : Bool) {c : ServerCfg} {cfg : Config} {attrs : List (List Bool)} {N : Nat}
    {V V' : Nat → List (List Field128)} {q : Nat → List Field128} {dg : Nat → Vector Byte 32}
    (hfd : Q.flpDecide = Q'.flpDecide) : ∀ (rs : List (Nat × Nat)) {kc : KeyCollection Q} {kc' : KeyCollection Q'}
    {f f' : List AbmOut → Prog α},
    AbmSide kc attrs N V q dg → AbmSide kc' attrs N V' q dg → kc.abmState.map Prod.fst = kc'.abmState.map Prod.fst →
    (∀ r ∈ rs, r.1 < r.2 ∧ r.2 ≤ N) → (∀ o, ∃ a, f o = .ret a) → (∀ o, ∃ a, f' o = .ret a) →
    SameTold b c (.running kc) (abmLoopP Q cfg attrs rs >>= f) (.running kc') (abmLoopP Q' cfg attrs rs >>= f')
  | [], kc, kc', f, f', _, _, _, _, hf, hf' => by
    obtain ⟨a, e⟩ := hf []
    obtain ⟨a', e'⟩ := hf' []
    show SameTold b c _ (f []) _ (f' [])
    rw [e, e']
    exact same_ret _ _ _ _ _ _
  | r :: rs, kc, kc', f, f', h, h', hk, hr, hf, hf' => by
    obtain ⟨h1, h2⟩ := hr r (by simp)
    rw [abmLoopP, abmLoopP]
    unfold abmBatchP
    simp only [prog_bind_assoc]
    have hrej : rejectEntries Q cfg.histBuckets = rejectEntries Q' cfg.histBuckets := by
      funext e
      unfold rejectEntries
      rw [hfd]
    have hv : ∀ {Q : Prims} {kc : KeyCollection Q} {V : Nat → List (List Field128)}, AbmSide kc attrs N V q dg →
        (Server.running kc).handle c (.abmValidate attrs r.1 r.2) = (.running { kc with
          abmState := (rangeFrom r.1 r.2).foldl (fun m i => mapInsert m i (V i)) kc.abmState },
          .ok (.validated ((rangeFrom r.1 r.2).map fun i => (q i, dg i)))) := by
      intro Q kc V h
      have : preLock c (.abmValidate attrs r.1 r.2) = .ok () := by simp [preLock, h1]
      unfold Server.handle
      simp only [this, locked, side_validate h h1.le h2, ok_bind]
    have rest : ∀ v : List (List Field128 × Vector Byte 32) × List (List Field128 × Vector Byte 32), SameTold b c
        (.running { kc with abmState := (rangeFrom r.1 r.2).foldl (fun m i => mapInsert m i (V i)) kc.abmState })
        (Prog.lift (assertE (v.1.length == r.2 - r.1)) >>= fun _ => Prog.lift (assertE (v.2.length == r.2 - r.1)) >>= fun _ =>
          Prog.lift (mapE (rejectEntries Q cfg.histBuckets) ((rangeFrom r.1 r.2).zip (v.1.zip v.2))) >>= fun rej =>
          callVecs (.abmResult rej.flatten attrs.length r.1 r.2) (.abmResult rej.flatten attrs.length r.1 r.2) >>= fun a =>
          Prog.ret { rejected := rej.flatten, results := addRows a.1 a.2 } >>= fun o =>
          abmLoopP Q cfg attrs rs >>= fun os => Prog.ret (o :: os) >>= f)
        (.running { kc' with abmState := (rangeFrom r.1 r.2).foldl (fun m i => mapInsert m i (V' i)) kc'.abmState })
        (Prog.lift (assertE (v.1.length == r.2 - r.1)) >>= fun _ => Prog.lift (assertE (v.2.length == r.2 - r.1)) >>= fun _ =>
          Prog.lift (mapE (rejectEntries Q' cfg.histBuckets) ((rangeFrom r.1 r.2).zip (v.1.zip v.2))) >>= fun rej =>
          callVecs (.abmResult rej.flatten attrs.length r.1 r.2) (.abmResult rej.flatten attrs.length r.1 r.2) >>= fun a =>
          Prog.ret { rejected := rej.flatten, results := addRows a.1 a.2 } >>= fun o =>
          abmLoopP Q' cfg attrs rs >>= fun os => Prog.ret (o :: os) >>= f') := by
      intro v
      refine same_lift fun _ _ => same_lift fun _ _ => ?_
      rw [hrej]
      refine same_lift fun rej _ => ?_
      have pl : preLock c (.abmResult rej.flatten attrs.length r.1 r.2) = .ok () := by simp [preLock, h1]
      have hg : ∀ (x : Bool) (r : Req), Pair.get (r, r) x = r := fun x r => by cases x <;> rfl
      rcases keys_reject (bld := c.build) rej.flatten (keys_foldl (V := V) (V' := V') (rangeFrom r.1 r.2) hk) with
        ⟨e, e', g1, g2⟩ | ⟨x, x', g1, g2, g3⟩
      · refine same_ask rfl (.inl ⟨.poisoned, .poisoned, e, e', ?_, ?_⟩)
        · rw [hg]; unfold Server.handle; simp only [pl, locked, srvAbmResult, g1]; rfl
        · rw [hg]; unfold Server.handle; simp only [pl, locked, srvAbmResult, g2]; rfl
      · have go : ∀ o o', SameTold b c (.running { kc with abmState := x })
            (abmLoopP Q cfg attrs rs >>= fun os => f (o :: os)) (.running { kc' with abmState := x' })
            (abmLoopP Q' cfg attrs rs >>= fun os => f' (o' :: os)) := fun o o' =>
          same_abmLoop b hfd rs (kc := { kc with abmState := x }) (kc' := { kc' with abmState := x' }) h h' g3
            (fun r hr' => hr r (by simp [hr'])) (fun _ => hf _) (fun _ => hf' _)
        refine same_ask rfl (.inr ⟨.running { kc with abmState := x }, .running { kc' with abmState := x' },
          .fieldVecs (abmAggregate kc.inputLen attrs.length (c.iter x)),
          .fieldVecs (abmAggregate kc'.inputLen attrs.length (c.iter x')), ?_, ?_, fun l => ?_⟩)
        · rw [hg]; unfold Server.handle; simp only [pl, locked, srvAbmResult, g1, ok_bind]
        · rw [hg]; unfold Server.handle; simp only [pl, locked, srvAbmResult, g2, ok_bind]
        · cases b <;> cases l <;> first | exact go _ _ | exact same_panic _ _ _ _ _ _
    have hg : ∀ (x : Bool) (r : Req), Pair.get (r, r) x = r := fun x r => by cases x <;> rfl
    refine same_ask rfl (.inr ⟨_, _, _, _, (congrArg _ (hg _ _)).trans (hv h), (congrArg _ (hg _ _)).trans (hv h'), fun l => ?_⟩)
    cases b <;> cases l <;> first | exact rest (_, _) | exact same_panic _ _ _ _ _ _

end Mastic
