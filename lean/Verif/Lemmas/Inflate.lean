import Verif.Spec.Inflate
import Verif.Lemmas.Deviate
import Verif.Lemmas.Abm
import Verif.Lemmas.AbmRun
import Verif.Lemmas.Prio3

/-!
# Lemmas: a server that adds something to its aggregates
-/

namespace Mastic

variable {P : Prims} {c0 c1 : ServerCfg} {b : Bool} {batch : Nat} {rows : Nat → List (List Field128)}
  {row : Nat → List Field128}

theorem plus_table {m n : Nat} {a e : List (List Field128)} (ha : Spec.IsTable m n a) (he : Spec.IsTable m n e) :
    Spec.IsTable m n (Spec.plus a e) ∧ ∀ j < m, ∀ c < n, Spec.cell (Spec.plus a e) j c = Spec.cell a j c + Spec.cell e j c := by
  obtain ⟨a1, a2⟩ := ha
  obtain ⟨e1, e2⟩ := he
  refine ⟨⟨by simp [Spec.plus, a1, e1], ?_⟩, ?_⟩
  · intro r hr
    obtain ⟨i, hi, rfl⟩ := List.getElem_of_mem hr
    simp only [Spec.plus, List.getElem_zipWith, Spec.addShares, List.length_zipWith]
    rw [a2 _ (List.getElem_mem _), e2 _ (List.getElem_mem _), Nat.min_self]
  · intro j hj c hc
    have ha := a2 _ (List.getElem_mem (l := a) (n := j) (by omega))
    have he := e2 _ (List.getElem_mem (l := e) (n := j) (by omega))
    rw [Spec.cell, Spec.cell, Spec.cell, Spec.plus, List.getElem?_zipWith,
      List.getElem?_eq_getElem (l := a) (i := j) (by omega), List.getElem?_eq_getElem (l := e) (i := j) (by omega)]
    simp only [Option.bind_some]
    rw [addShares_getElem? (List.getElem?_eq_getElem (by omega)) (List.getElem?_eq_getElem (by omega)),
      List.getElem?_eq_getElem (by omega), List.getElem?_eq_getElem (by omega)]
    rfl

theorem addRows_plus {m n : Nat} {a0 a1 e : List (List Field128)} (h0 : Spec.IsTable m n a0) (h1 : Spec.IsTable m n a1)
    (he : Spec.IsTable m n e) : addRows (Spec.plus a0 e) a1 = Spec.plus (addRows a0 a1) e ∧
      addRows a0 (Spec.plus a1 e) = Spec.plus (addRows a0 a1) e := by
  obtain ⟨p0, q0⟩ := plus_table h0 he
  obtain ⟨p1, q1⟩ := plus_table h1 he
  obtain ⟨p, q⟩ := cell_addRows h0 a1
  obtain ⟨p2, q2⟩ := plus_table p he
  obtain ⟨p3, q3⟩ := cell_addRows p0 a1
  obtain ⟨p4, q4⟩ := cell_addRows h0 (Spec.plus a1 e)
  constructor
  · refine isTable_ext p3 p2 fun j hj c hc => ?_
    rw [q3 j hj c hc, q0 j hj c hc, q2 j hj c hc, q j hj c hc]
    ring
  · refine isTable_ext p4 p2 fun j hj c hc => ?_
    rw [q4 j hj c hc, q1 j hj c hc, q2 j hj c hc, q j hj c hc]
    ring

theorem tells_bendLift {α : Type} {f : Req → Resp → Resp} {e : Exec α} {kcs k : Pair2 P} {sent : List (Req × Req)} {a : α}
    (h : Tells c0 c1 (Prog.lift e) kcs sent a k) : Tells c0 c1 (bendP b f (Prog.lift e)) kcs sent a k := by
  rw [bendP_lift]; exact h

/-! ### The calls -/

theorem inflate_done {r0 r1 : Req} (h0 : ∀ a, Spec.inflate batch rows row r0 a = a)
    (h1 : ∀ a, Spec.inflate batch rows row r1 a = a) :
    bendP b (Spec.inflate batch rows row) (callDone r0 r1) = callDone r0 r1 := by
  unfold callDone
  simp only [bendP, h0, h1, ite_self]
  congr 1
  funext a0 a1
  cases a0 <;> cases a1 <;> rfl

theorem inflate_validated (attrs : List (List Bool)) (s e : Nat) :
    bendP b (Spec.inflate batch rows row) (callValidated (.abmValidate attrs s e) (.abmValidate attrs s e))
      = callValidated (.abmValidate attrs s e) (.abmValidate attrs s e) := by
  unfold callValidated
  bend_call b

theorem inflate_bytes (s e : Nat) :
    bendP b (Spec.inflate batch rows row) (callBytes (.pmValidate s e) (.pmValidate s e))
      = callBytes (.pmValidate s e) (.pmValidate s e) := by
  unfold callBytes
  bend_call b

theorem inflate_result (rej : List Nat) (m s e : Nat) :
    bendP b (Spec.inflate batch rows row) (callVecs (.abmResult rej m s e) (.abmResult rej m s e))
      = callVecs (.abmResult rej m s e) (.abmResult rej m s e) >>= fun v =>
        .ret (bendPair b (fun v => Spec.plus v (rows (s / batch))) v) := by
  unfold callVecs
  show _ = Prog.ask _ _ _
  bend_call b

theorem inflate_aggregate (p0 p1 : List (List Byte)) (s e : Nat) :
    bendP b (Spec.inflate batch rows row) (callAggregate (.pmResult p0 s e) (.pmResult p1 s e))
      = callAggregate (.pmResult p0 s e) (.pmResult p1 s e) >>= fun v =>
        .ret (bendPair b (fun v => (Spec.addShares v.1 (row (s / batch)), v.2)) v) := by
  unfold callAggregate
  show _ = Prog.ask _ _ _
  bend_call b

theorem inflate_await (reports : List PlaintextReport) : ∀ bs : List (List (Nat × Option Tamper)),
    bendP b (Spec.inflate batch rows row) (awaitAllP reports bs) = awaitAllP reports bs
  | [] => rfl
  | c :: cs => by
    rw [awaitAllP, bendP_bind, addReportsP, bendP_bind]
    congr 1
    · show bendP b _ (Prog.lift _) >>= _ = _
      rw [bendP_lift]
      congr 1
      funext sh
      exact inflate_done (fun _ => rfl) (fun _ => rfl)
    · funext u
      exact inflate_await reports cs

/-! ### Attribute-based metrics -/

theorem abm_inputLen {c : ServerCfg} {kc k : KeyCollection P} {r : Req} {a : Resp} {attrs : List (List Bool)} {s e : Nat}
    (h : (Server.running kc).handle c r = (.running k, .ok a)) (hr : r = .abmValidate attrs s e ∨ ∃ rej m, r = .abmResult rej m s e) :
    k.inputLen = kc.inputLen := by
  obtain ⟨-, k, e, l⟩ := talk_step_ok h
  cases e
  rcases hr with rfl | ⟨rej, m, rfl⟩
  · simp only [locked, srvAbmValidate] at l
    obtain ⟨⟨x, y⟩, e1, l⟩ := bind_eq_ok.1 l
    obtain ⟨_, -, e1⟩ := bind_eq_ok.1 e1
    obtain ⟨_, -, e1⟩ := bind_eq_ok.1 e1
    cases e1
    cases l
    rfl
  · simp only [locked, srvAbmResult] at l
    obtain ⟨⟨x, y⟩, e1, l⟩ := bind_eq_ok.1 l
    obtain ⟨_, -, e1⟩ := bind_eq_ok.1 e1
    cases e1
    cases l
    rfl

theorem abm_table {c : ServerCfg} {kc k : KeyCollection P} {rej : List Nat} {m s e : Nat} {v : List (List Field128)}
    (h : (Server.running kc).handle c (.abmResult rej m s e) = (.running k, .ok (.fieldVecs v))) :
    Spec.IsTable m kc.inputLen v := by
  obtain ⟨-, k, e, l⟩ := talk_step_ok h
  cases e
  simp only [locked, srvAbmResult] at l
  obtain ⟨⟨x, y⟩, e1, l⟩ := bind_eq_ok.1 l
  obtain ⟨_, -, e1⟩ := bind_eq_ok.1 e1
  cases e1
  cases l
  exact (abmAggregate_isSum _ _ _).1

theorem tells_vecsCall {r0 r1 : Req} {kcs k : Pair2 P} {sent : List (Req × Req)}
    {v : List (List Field128) × List (List Field128)} (h : Tells c0 c1 (callVecs r0 r1) kcs sent v k) : sent = [(r0, r1)] ∧
      ∀ b, (Server.running (Pair.get kcs b)).handle (Pair.get (c0, c1) b) (Pair.get (r0, r1) b)
        = (.running (Pair.get k b), .ok (.fieldVecs (Pair.get v b))) := by
  obtain ⟨a0, a1, k1, rest, rfl, hh, h⟩ := tells_once h
  cases a0 <;> cases a1 <;> first | (cases h; done) | skip
  obtain ⟨rfl, rfl, rfl⟩ := tells_ret h
  exact ⟨rfl, fun b => by have := hh b; cases b <;> exact this⟩

theorem tells_validatedCall {r0 r1 : Req} {kcs k : Pair2 P} {sent : List (Req × Req)}
    {v : List (List Field128 × Vector Byte 32) × List (List Field128 × Vector Byte 32)}
    (h : Tells c0 c1 (callValidated r0 r1) kcs sent v k) : sent = [(r0, r1)] ∧
      ∀ b, (Server.running (Pair.get kcs b)).handle (Pair.get (c0, c1) b) (Pair.get (r0, r1) b)
        = (.running (Pair.get k b), .ok (.validated (Pair.get v b))) := by
  obtain ⟨a0, a1, k1, rest, rfl, hh, h⟩ := tells_once h
  cases a0 <;> cases a1 <;> first | (cases h; done) | skip
  obtain ⟨rfl, rfl, rfl⟩ := tells_ret h
  exact ⟨rfl, fun b => by have := hh b; cases b <;> exact this⟩

theorem tells_inflatedBatch {cfg : Config} {attrs : List (List Bool)} {n : Nat} {r : Nat × Nat} {kcs k : Pair2 P}
    {sent : List (Req × Req)} {o : AbmOut} (h : Tells c0 c1 (abmBatchP P cfg attrs r) kcs sent o k)
    (hn0 : kcs.1.inputLen = n) (hn1 : kcs.2.inputLen = n) (he : Spec.IsTable attrs.length n (rows (r.1 / batch))) :
    Tells c0 c1 (bendP b (Spec.inflate batch rows row) (abmBatchP P cfg attrs r)) kcs sent
      { o with results := Spec.plus o.results (rows (r.1 / batch)) } k ∧ k.1.inputLen = n ∧ k.2.inputLen = n := by
  unfold abmBatchP at h ⊢
  obtain ⟨x1, y1, v, k1, rfl, h1, g1⟩ := tells_bind h
  obtain ⟨x2, y2, u2, k2, rfl, h2, g2⟩ := tells_bind g1
  obtain ⟨x3, y3, u3, k3, rfl, h3, g3⟩ := tells_bind g2
  obtain ⟨x4, y4, rej, k4, rfl, h4, g4⟩ := tells_bind g3
  obtain ⟨x5, y5, a, k5, rfl, h5, g5⟩ := tells_bind g4
  obtain ⟨rfl, rfl, rfl⟩ := tells_ret g5
  have f1 := (tells_validatedCall h1).2
  have e2 := (tells_lift h2).2.1
  have e3 := (tells_lift h3).2.1
  have e4 := (tells_lift h4).2.1
  have f5 := (tells_vecsCall h5).2
  subst e4
  subst e3
  subst e2
  have i0 : k4.1.inputLen = n := (abm_inputLen (f1 false) (.inl rfl)).trans hn0
  have i1 : k4.2.inputLen = n := (abm_inputLen (f1 true) (.inl rfl)).trans hn1
  have t0 : Spec.IsTable attrs.length n a.1 := i0 ▸ abm_table (f5 false)
  have t1 : Spec.IsTable attrs.length n a.2 := i1 ▸ abm_table (f5 true)
  refine ⟨?_, (abm_inputLen (attrs := attrs) (f5 false) (.inr ⟨_, _, rfl⟩)).trans i0, (abm_inputLen (attrs := attrs) (f5 true) (.inr ⟨_, _, rfl⟩)).trans i1⟩
  rw [bendP_bind, inflate_validated]
  refine Tells.bind h1 ?_
  rw [bendP_bind]
  refine Tells.bind (tells_bendLift h2) ?_
  rw [bendP_bind]
  refine Tells.bind (tells_bendLift h3) ?_
  rw [bendP_bind]
  refine Tells.bind (tells_bendLift h4) ?_
  simp only
  rw [bendP_bind, inflate_result, prog_bind_assoc]
  refine Tells.bind h5 ?_
  have : (addRows (bendPair b (fun v => Spec.plus v (rows (r.1 / batch))) a).1
      (bendPair b (fun v => Spec.plus v (rows (r.1 / batch))) a).2) = Spec.plus (addRows a.1 a.2) (rows (r.1 / batch)) := by
    cases b
    · exact (addRows_plus t0 t1 he).1
    · exact (addRows_plus t0 t1 he).2
  rw [← this]
  exact .ret _ _ _

theorem tells_inflatedAbm {cfg : Config} {attrs : List (List Bool)} {n : Nat} : ∀ {rs : List (Nat × Nat)} {kcs k : Pair2 P}
    {sent : List (Req × Req)} {outs : List AbmOut}, Tells c0 c1 (abmLoopP P cfg attrs rs) kcs sent outs k →
    kcs.1.inputLen = n → kcs.2.inputLen = n → (∀ r ∈ rs, Spec.IsTable attrs.length n (rows (r.1 / batch))) →
    Tells c0 c1 (bendP b (Spec.inflate batch rows row) (abmLoopP P cfg attrs rs)) kcs sent
      (List.zipWith (fun r o => { o with results := Spec.plus o.results (rows (r.1 / batch)) }) rs outs) k
  | [], kcs, k, sent, outs, h, _, _, _ => by
    obtain ⟨rfl, rfl, rfl⟩ := tells_ret h
    exact .ret _ _ _
  | r :: rs, kcs, k, sent, outs, h, hn0, hn1, he => by
    rw [abmLoopP] at h ⊢
    obtain ⟨x1, y1, o, k1, rfl, h1, g1⟩ := tells_bind h
    obtain ⟨x2, y2, os, k2, rfl, h2, g2⟩ := tells_bind g1
    obtain ⟨rfl, rfl, rfl⟩ := tells_ret g2
    obtain ⟨h1, i0, i1⟩ := tells_inflatedBatch (b := b) (row := row) h1 hn0 hn1 (he r (List.mem_cons_self ..))
    rw [bendP_bind]
    refine Tells.bind h1 ?_
    rw [bendP_bind]
    refine Tells.bind (tells_inflatedAbm h2 i0 i1 fun r hr => he r (List.mem_cons_of_mem _ hr)) ?_
    exact .ret _ _ _

/-! ### Plain metrics -/

theorem tells_inflatedPmBatch {Z : Prio3Xof} {cfg : Config} {r : Nat × Nat} {kcs k : Pair2 (P.withPrio3 Z)}
    {sent : List (Req × Req)} {o : PmOut} (h : Tells c0 c1 (pmBatchP (P.withPrio3 Z) cfg r) kcs sent o k)
    (he : (row (r.1 / batch)).length = cfg.histBuckets) :
    Tells c0 c1 (bendP b (Spec.inflate batch rows row) (pmBatchP (P.withPrio3 Z) cfg r)) kcs sent
      { o with result := Spec.shifted o.result (row (r.1 / batch)) } k := by
  unfold pmBatchP at h ⊢
  obtain ⟨x1, y1, v, k1, rfl, h1, g1⟩ := tells_bind h
  obtain ⟨x2, y2, u2, k2, rfl, h2, g2⟩ := tells_bind g1
  obtain ⟨x3, y3, u3, k3, rfl, h3, g3⟩ := tells_bind g2
  obtain ⟨x4, y4, a, k4, rfl, h4, g4⟩ := tells_bind g3
  obtain ⟨x5, y5, u5, k5, rfl, h5, g5⟩ := tells_bind g4
  obtain ⟨x6, y6, res, k6, rfl, h6, g6⟩ := tells_bind g5
  obtain ⟨rfl, rfl, rfl⟩ := tells_ret g6
  rw [bendP_bind, inflate_bytes]
  refine Tells.bind h1 ?_
  rw [bendP_bind]
  refine Tells.bind (tells_bendLift h2) ?_
  rw [bendP_bind]
  refine Tells.bind (tells_bendLift h3) ?_
  rw [bendP_bind, inflate_aggregate, prog_bind_assoc]
  refine Tells.bind h4 ?_
  have hres : prio3Result cfg.histBuckets a.1.1 a.2.1 = some res := by
    have := (tells_lift h6).2.2
    change unwrapO (prio3Result cfg.histBuckets a.1.1 a.2.1) = _ at this
    cases hh : prio3Result cfg.histBuckets a.1.1 a.2.1 with
    | none => rw [hh] at this; cases this
    | some x => rw [hh] at this; cases this; rfl
  have e5 := (tells_lift h5)
  have e6 := (tells_lift h6)
  obtain ⟨rfl, rfl, e5⟩ := e5
  obtain ⟨rfl, rfl, e6⟩ := e6
  unfold prio3Result at hres
  split at hres
  case isFalse => cases hres
  rename_i hl
  cases hres
  show Tells c0 c1 (bendP b (Spec.inflate batch rows row) (Prog.lift _ >>= _)) _ _ _ _
  rw [bendP_bind, bendP_lift]
  refine Tells.bind (x := []) (a := ()) (k1 := k) ?_ ?_
  · have : ((bendPair b (fun v => (Spec.addShares v.1 (row (r.1 / batch)), v.2)) a).1.2
      == (bendPair b (fun v => (Spec.addShares v.1 (row (r.1 / batch)), v.2)) a).2.2) = (a.1.2 == a.2.2) := by
      cases b <;> rfl
    rw [this]
    change assertE _ = _ at e5
    rw [e5]
    exact .ret _ _ _
  · rw [bendP_bind]
    have hnew : prio3Result cfg.histBuckets (bendPair b (fun v => (Spec.addShares v.1 (row (r.1 / batch)), v.2)) a).1.1
        (bendPair b (fun v => (Spec.addShares v.1 (row (r.1 / batch)), v.2)) a).2.1
        = some (Spec.shifted ((List.zipWith (· + ·) a.1.1 a.2.1).map ZMod.val) (row (r.1 / batch))) := by
      have hval : ((List.zipWith (· + ·) a.1.1 a.2.1).map ZMod.val).map (fun x : Nat => (x : Field128))
          = Spec.addShares a.1.1 a.2.1 := by
        rw [List.map_map]
        conv_rhs => rw [← List.map_id (Spec.addShares a.1.1 a.2.1)]
        refine List.map_congr_left fun x _ => ?_
        simp
      rw [Spec.shifted, hval]
      have key : List.zipWith (· + ·) (bendPair b (fun v => (Spec.addShares v.1 (row (r.1 / batch)), v.2)) a).1.1
          (bendPair b (fun v => (Spec.addShares v.1 (row (r.1 / batch)), v.2)) a).2.1
          = Spec.addShares (Spec.addShares a.1.1 a.2.1) (row (r.1 / batch)) := by
        refine List.ext_getElem ?_ fun i _ _ => ?_
        · cases b <;> simp [bendPair, Spec.addShares, hl, he]
        · cases b <;> simp [bendPair, Spec.addShares] <;> ring
      unfold prio3Result
      rw [if_pos, key]
      cases b <;> simp [bendPair, Spec.addShares, hl, he]
    refine Tells.bind (x := []) (k1 := k) (tells_bendLift
      (a := Spec.shifted ((List.zipWith (· + ·) a.1.1 a.2.1).map ZMod.val) (row (r.1 / batch))) ?_) ?_
    · show Tells c0 c1 (Prog.lift (unwrapO (prio3Result _ _ _))) _ _ _ _
      rw [hnew]
      exact .ret _ _ _
    · have : (bendPair b (fun v => (Spec.addShares v.1 (row (r.1 / batch)), v.2)) a).1.2 = a.1.2 := by
        cases b <;> rfl
      simp only [this]
      exact .ret _ _ _

theorem tells_inflatedPm {Z : Prio3Xof} {cfg : Config} : ∀ {rs : List (Nat × Nat)} {kcs k : Pair2 (P.withPrio3 Z)}
    {sent : List (Req × Req)} {outs : List PmOut}, Tells c0 c1 (pmLoopP (P.withPrio3 Z) cfg rs) kcs sent outs k →
    (∀ r ∈ rs, (row (r.1 / batch)).length = cfg.histBuckets) →
    Tells c0 c1 (bendP b (Spec.inflate batch rows row) (pmLoopP (P.withPrio3 Z) cfg rs)) kcs sent
      (List.zipWith (fun r o => { o with result := Spec.shifted o.result (row (r.1 / batch)) }) rs outs) k
  | [], kcs, k, sent, outs, h, _ => by
    obtain ⟨rfl, rfl, rfl⟩ := tells_ret h
    exact .ret _ _ _
  | r :: rs, kcs, k, sent, outs, h, he => by
    rw [pmLoopP] at h ⊢
    obtain ⟨x1, y1, o, k1, rfl, h1, g1⟩ := tells_bind h
    obtain ⟨x2, y2, os, k2, rfl, h2, g2⟩ := tells_bind g1
    obtain ⟨rfl, rfl, rfl⟩ := tells_ret g2
    have h1 := tells_inflatedPmBatch (b := b) (rows := rows) (row := row) h1 (he r (List.mem_cons_self ..))
    rw [bendP_bind]
    refine Tells.bind h1 ?_
    rw [bendP_bind]
    refine Tells.bind (tells_inflatedPm h2 fun r hr => he r (List.mem_cons_of_mem _ hr)) ?_
    exact .ret _ _ _

/-! ### The whole run -/

theorem upload_foldl : ∀ (sh : List ReportShare) (kc : KeyCollection P),
    (srvAddReportShares kc sh).inputLen = kc.inputLen
  | [], _ => rfl
  | x :: sh, kc => (upload_foldl sh (kc.addReportShare x)).trans rfl

theorem upload_inputLen {c : ServerCfg} {kc k : KeyCollection P} {sh : List ReportShare} {a : Resp}
    (h : (Server.running kc).handle c (.addReportShares sh) = (.running k, .ok a)) : k.inputLen = kc.inputLen := by
  obtain ⟨-, k, e, l⟩ := talk_step_ok h
  cases e
  simp only [locked] at l
  cases l
  exact upload_foldl sh kc

theorem await_inputLen {reports : List PlaintextReport} : ∀ {bs : List (List (Nat × Option Tamper))} {kcs k : Pair2 P}
    {sent : List (Req × Req)} {u : Unit}, Tells c0 c1 (awaitAllP reports bs) kcs sent u k →
    ∀ b, (Pair.get k b).inputLen = (Pair.get kcs b).inputLen
  | [], kcs, k, sent, u, h, b => by
    obtain ⟨rfl, rfl, -⟩ := tells_ret h
    rfl
  | c :: cs, kcs, k, sent, u, h, b => by
    rw [awaitAllP] at h
    obtain ⟨x1, y1, v, k1, rfl, h1, g1⟩ := tells_bind h
    unfold addReportsP at h1
    obtain ⟨x2, y2, sh, k2, rfl, h2, g2⟩ := tells_bind h1
    obtain ⟨rfl, rfl, e2⟩ := tells_lift h2
    obtain ⟨rfl, hd⟩ := tells_doneCall g2
    rw [await_inputLen g1 b]
    have := hd b
    cases b <;> exact upload_inputLen this

theorem reset_inputLen {c : ServerCfg} {kc k : KeyCollection P} {vk : Block} {n : Nat} {a : Resp}
    (h : (Server.running kc).handle c (.reset vk n) = (.running k, .ok a)) : k.inputLen = n := by
  obtain ⟨-, k, e, l⟩ := talk_step_ok h
  cases e
  simp only [locked, srvReset] at l
  obtain ⟨x, e1, l⟩ := bind_eq_ok.1 l
  cases l
  split at e1
  · cases e1; rfl
  · cases e1

/-- The part of the run up to the upload does not change, and after it the servers have the driver's number of buckets. -/
theorem tells_inflatedMain {bld : Build} {cfg : Config} {mode : DriverMode} {draw : MainDraw} {n : Nat} {kcs k : Pair2 P}
    {sent : List (Req × Req)} {out out' : Shown} (h : Tells c0 c1 (mainP P bld cfg mode draw n) kcs sent out k)
    (hc : ∀ (reports : List PlaintextReport) (kcs : Pair2 P) (sent : List (Req × Req)),
      Tells c0 c1 (collectP P bld cfg mode draw n reports) kcs sent out k → kcs.1.inputLen = cfg.histBuckets →
      kcs.2.inputLen = cfg.histBuckets →
      Tells c0 c1 (bendP b (Spec.inflate batch rows row) (collectP P bld cfg mode draw n reports)) kcs sent out' k) :
    Tells c0 c1 (bendP b (Spec.inflate batch rows row) (mainP P bld cfg mode draw n)) kcs sent out' k := by
  unfold mainP at h ⊢
  obtain ⟨x1, y1, u1, q1, rfl, h1, g1⟩ := tells_bind h
  rw [bendP_bind]
  refine Tells.bind (tells_bendLift h1) ?_
  split at g1
  · cases g1
  rename_i hok
  rw [if_neg hok]
  obtain ⟨x2, y2, reports, q2, rfl, h2, g2⟩ := tells_bind g1
  rw [bendP_bind]
  refine Tells.bind (tells_bendLift h2) ?_
  obtain ⟨x3, y3, u3, q3, rfl, h3, g3⟩ := tells_bind g2
  rw [bendP_bind]
  have hr := (tells_doneCall h3).2
  refine Tells.bind (a := u3) (k1 := q3) ?_ ?_
  · unfold resetP at h3 ⊢
    rw [inflate_done (fun _ => rfl) (fun _ => rfl)]
    exact h3
  obtain ⟨x4, y4, u4, q4, rfl, h4, g4⟩ := tells_bind g3
  unfold mainUploadP at h4 ⊢
  split at h4
  · cases h4
  rename_i hz
  rw [if_neg hz, bendP_bind]
  unfold uploadP at h4 ⊢
  obtain ⟨x5, y5, sizes, q5, rfl, h5, g5⟩ := tells_bind h4
  have i := await_inputLen g5
  have e5 := (tells_lift h5).2.1
  subst e5
  refine Tells.bind (a := u4) (k1 := q4) ?_ ?_
  · rw [bendP_bind]
    refine Tells.bind (tells_bendLift h5) ?_
    rw [inflate_await]
    exact g5
  · exact hc reports q4 y4 g4 ((i false).trans (reset_inputLen (hr false))) ((i true).trans (reset_inputLen (hr true)))

theorem zipWith_ranges {α : Type} (n : Nat) (f : Nat → α → α) : ∀ (outs : List α), outs.length = (n + batch - 1) / batch →
    1 ≤ batch → List.zipWith (fun r o => f (r.1 / batch) o) ((List.range ((n + batch - 1) / batch)).map fun k =>
      (k * batch, min n (k * batch + batch))) outs = outs.mapIdx f := by
  intro outs hl hb
  refine List.ext_getElem (by simp [hl]) fun i h1 h2 => ?_
  simp only [List.getElem_zipWith, List.getElem_map, List.getElem_range, List.getElem_mapIdx]
  rw [Nat.mul_div_cancel _ (by omega)]

theorem abmLoop_length {cfg : Config} {attrs : List (List Bool)} : ∀ {rs : List (Nat × Nat)} {kcs k : Pair2 P}
    {sent : List (Req × Req)} {outs : List AbmOut}, Tells c0 c1 (abmLoopP P cfg attrs rs) kcs sent outs k →
    outs.length = rs.length
  | [], kcs, k, sent, outs, h => by
    obtain ⟨rfl, rfl, rfl⟩ := tells_ret h
    rfl
  | r :: rs, kcs, k, sent, outs, h => by
    rw [abmLoopP] at h
    obtain ⟨x1, y1, o, k1, rfl, h1, g1⟩ := tells_bind h
    obtain ⟨x2, y2, os, k2, rfl, h2, g2⟩ := tells_bind g1
    obtain ⟨rfl, rfl, rfl⟩ := tells_ret g2
    simp [abmLoop_length h2]

theorem pmLoop_length {cfg : Config} : ∀ {rs : List (Nat × Nat)} {kcs k : Pair2 P}
    {sent : List (Req × Req)} {outs : List PmOut}, Tells c0 c1 (pmLoopP P cfg rs) kcs sent outs k →
    outs.length = rs.length
  | [], kcs, k, sent, outs, h => by
    obtain ⟨rfl, rfl, rfl⟩ := tells_ret h
    rfl
  | r :: rs, kcs, k, sent, outs, h => by
    rw [pmLoopP] at h
    obtain ⟨x1, y1, o, k1, rfl, h1, g1⟩ := tells_bind h
    obtain ⟨x2, y2, os, k2, rfl, h2, g2⟩ := tells_bind g1
    obtain ⟨rfl, rfl, rfl⟩ := tells_ret g2
    simp [pmLoop_length h2]

end Mastic
