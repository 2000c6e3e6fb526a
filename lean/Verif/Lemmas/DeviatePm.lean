import Verif.Lemmas.DeviateAbm
import Verif.Lemmas.PmReplies

/-!
# Lemmas: what a lying server is asked in two plain-metrics runs
-/

namespace Mastic

variable {P : Prims} {Z Z' : Prio3Xof} {α : Type}

/-- Preparation states that lead to the same decisions, and their shares. -/
def PrepAlike (n : Nat) (x x' : Prio3State × Prio3Share) : Prop :=
  x.2 = x'.2 ∧ x.1.jointSeed = x'.1.jointSeed ∧ x.1.verifierLen = x'.1.verifierLen ∧
    x.1.share.length = n ∧ x'.1.share.length = n

/-- Stored states with the same indices, and alike. -/
def StoredAlike (n : Nat) (m m' : List (Nat × (Prio3State × Prio3Share))) : Prop :=
  List.Forall₂ (fun e e' => e.1 = e'.1 ∧ PrepAlike n e.2 e'.2) m m'

theorem alike_insert {n : Nat} {m m' : List (Nat × (Prio3State × Prio3Share))} {x x' : Prio3State × Prio3Share} (k : Nat)
    (hx : PrepAlike n x x') (h : StoredAlike n m m') : StoredAlike n (mapInsert m k x) (mapInsert m' k x') := by
  unfold StoredAlike at h ⊢
  induction h with
  | nil => exact .cons ⟨rfl, hx⟩ .nil
  | @cons a b m m' h1 h2 ih =>
    obtain ⟨a, y⟩ := a
    obtain ⟨b, y'⟩ := b
    obtain ⟨rfl, h1⟩ : a = b ∧ _ := h1
    unfold mapInsert
    split
    · exact .cons ⟨rfl, hx⟩ h2
    · exact .cons ⟨rfl, h1⟩ ih

theorem alike_foldl {n : Nat} {F F' : Nat → Prio3State × Prio3Share} : ∀ (l : List Nat)
    {m m' : List (Nat × (Prio3State × Prio3Share))}, (∀ i ∈ l, PrepAlike n (F i) (F' i)) → StoredAlike n m m' →
    StoredAlike n (l.foldl (fun m i => mapInsert m i (F i)) m) (l.foldl (fun m i => mapInsert m i (F' i)) m')
  | [], _, _, _, h => h
  | i :: l, _, _, hF, h => alike_foldl l (fun j hj => hF j (by simp [hj])) (alike_insert i (hF i (by simp)) h)

theorem alike_remove {n : Nat} {m m' : List (Nat × (Prio3State × Prio3Share))} (k : Nat) (h : StoredAlike n m m') :
    ((mapRemove m k).1 = none ∧ (mapRemove m' k).1 = none ∨
      ∃ x x', (mapRemove m k).1 = some x ∧ (mapRemove m' k).1 = some x' ∧ PrepAlike n x x') ∧
    StoredAlike n (mapRemove m k).2 (mapRemove m' k).2 := by
  unfold StoredAlike at h
  induction h with
  | nil => exact ⟨.inl ⟨rfl, rfl⟩, .nil⟩
  | @cons a b m m' h1 h2 ih =>
    obtain ⟨a, y⟩ := a
    obtain ⟨b, y'⟩ := b
    obtain ⟨rfl, h1⟩ : a = b ∧ _ := h1
    unfold mapRemove
    split
    · exact ⟨.inr ⟨y, y', rfl, rfl, h1⟩, h2⟩
    · exact ⟨ih.1, .cons ⟨rfl, h1⟩ ih.2⟩

/-- The decision on one report, written out. -/
theorem pmResultClient_eq (id : Int) (N : Nat) (m : List (Nat × (P.PrepState × P.PrepShare))) (ip : Nat × List Byte) :
    pmResultClient (P := P) id N m ip = match (mapRemove m ip.1).1 with
      | none => .error .unwrap
      | some x => match P.prepDecode x.1 ip.2 with
        | none => .error .unwrap
        | some peer => .ok ((mapRemove m ip.1).2,
            (P.prepCombine N (if id = 0 then x.2 else peer) (if id = 0 then peer else x.2)).bind (P.prepNext N x.1)) := by
  unfold pmResultClient
  dsimp only
  generalize mapRemove m ip.1 = rm
  obtain ⟨o, rest⟩ := rm
  cases o with
  | none => rfl
  | some x =>
    obtain ⟨st, sh⟩ := x
    dsimp only
    rw [show unwrapO (some (st, sh)) = .ok (st, sh) from rfl, ok_bind]
    dsimp only
    cases P.prepDecode st ip.2 with
    | none => rfl
    | some peer =>
      rw [show unwrapO (some peer) = .ok peer from rfl, ok_bind]
      dsimp only
      by_cases h : id = 0
      · simp only [h, if_true]
        cases P.prepCombine N sh peer <;> rfl
      · simp only [h, if_false]
        cases P.prepCombine N peer sh <;> rfl

/-- The same for Prio3. -/
def prio3Client (Z : Prio3Xof) (id : Int) (N : Nat) (m : List (Nat × (Prio3State × Prio3Share))) (ip : Nat × List Byte) :
    Exec (List (Nat × (Prio3State × Prio3Share)) × Option (List Field128)) :=
  match (mapRemove m ip.1).1 with
  | none => .error .unwrap
  | some x => match prio3DecodeShare x.1 ip.2 with
    | none => .error .unwrap
    | some peer => .ok ((mapRemove m ip.1).2,
        (Z.combine (histogramChunkLength N .plainMetrics) (if id = 0 then x.2 else peer)
          (if id = 0 then peer else x.2)).bind (prio3Next x.1))

theorem prio3Client_eq (id : Int) (N : Nat) (m : List (Nat × (Prio3State × Prio3Share))) (ip : Nat × List Byte) :
    pmResultClient (P := P.withPrio3 Z) id N m ip = prio3Client Z id N m ip := by
  refine (pmResultClient_eq (P := P.withPrio3 Z) id N m ip).trans ?_
  unfold prio3Client
  rcases hx : mapRemove m ip.1 with ⟨o, rest⟩
  have hx' : mapRemove (α := (P.withPrio3 Z).PrepState × (P.withPrio3 Z).PrepShare) m ip.1 = (o, rest) := hx
  rw [hx']
  cases o with
  | none => rfl
  | some x =>
    cases hd : prio3DecodeShare x.1 ip.2 with
    | none =>
      have hd' : (P.withPrio3 Z).prepDecode x.1 ip.2 = none := hd
      dsimp only
      rw [hd', hd]
      rfl
    | some peer =>
      have hd' : (P.withPrio3 Z).prepDecode x.1 ip.2 = some peer := hd
      dsimp only
      rw [hd', hd]
      rfl

/-- The decision on one report. -/
theorem alike_client {n N : Nat} {id : Int} (hz : ∀ a b, Z'.jointSeed a b = Z.jointSeed a b)
    {m m' : List (Nat × (Prio3State × Prio3Share))} (ip : Nat × List Byte) (h : StoredAlike n m m') :
    (∃ e e', prio3Client Z id N m ip = .error e ∧ prio3Client Z' id N m' ip = .error e') ∨
    ∃ x x' o o', prio3Client Z id N m ip = .ok (x, o) ∧
      prio3Client Z' id N m' ip = .ok (x', o') ∧ StoredAlike n x x' ∧ o.isSome = o'.isSome ∧
      (∀ v ∈ o, v.length = n) ∧ ∀ v ∈ o', v.length = n := by
  obtain ⟨h1, h2⟩ := alike_remove ip.1 h
  unfold prio3Client
  rcases h1 with ⟨e, e'⟩ | ⟨⟨⟨x, seed, len⟩, sh⟩, ⟨⟨x', seed', len'⟩, sh'⟩, e, e', g1, g2, g3, g4, g5⟩
  · rw [e, e']
    exact .inl ⟨_, _, rfl, rfl⟩
  · rw [e, e']
    dsimp only at g1 g2 g3 g4 g5
    subst g1 g2 g3
    dsimp only
    have hd : prio3DecodeShare ⟨x', seed, len⟩ ip.2 = prio3DecodeShare ⟨x, seed, len⟩ ip.2 := rfl
    rw [hd]
    cases hp : prio3DecodeShare ⟨x, seed, len⟩ ip.2 with
    | none => exact .inl ⟨_, _, rfl, rfl⟩
    | some peer =>
      right
      refine ⟨_, _, _, _, rfl, rfl, h2, ?_, ?_, ?_⟩
      · rw [combine_congr hz]
        cases Z.combine (histogramChunkLength N .plainMetrics) (if id = 0 then sh else peer)
          (if id = 0 then peer else sh) with
        | none => rfl
        | some msg =>
          simp only [Option.bind_some, prio3Next]
          split <;> rfl
      · intro v hv
        obtain ⟨msg, -, hv⟩ := Option.bind_eq_some_iff.1 hv
        simp only [prio3Next] at hv
        split at hv
        · cases hv; exact g4
        · cases hv
      · intro v hv
        obtain ⟨msg, -, hv⟩ := Option.bind_eq_some_iff.1 hv
        simp only [prio3Next] at hv
        split at hv
        · cases hv; exact g5
        · cases hv

theorem alike_loop {n N : Nat} {id : Int} (hz : ∀ a b, Z'.jointSeed a b = Z.jointSeed a b) :
    ∀ (ips : List (Nat × List Byte)) {m m' : List (Nat × (Prio3State × Prio3Share))}, StoredAlike n m m' →
    (∃ e e', pmResultLoop (P := P.withPrio3 Z) id N ips m = .error e ∧
      pmResultLoop (P := P.withPrio3 Z') id N ips m' = .error e') ∨
    ∃ x x' os os', pmResultLoop (P := P.withPrio3 Z) id N ips m = .ok (x, os) ∧
      pmResultLoop (P := P.withPrio3 Z') id N ips m' = .ok (x', os') ∧ StoredAlike n x x' ∧ os.length = os'.length ∧
      (∀ v ∈ os, v.length = n) ∧ ∀ v ∈ os', v.length = n
  | [], m, m', h => .inr ⟨m, m', [], [], rfl, rfl, h, rfl, by simp, by simp⟩
  | ip :: ips, m, m', h => by
    have step : ∀ (Z : Prio3Xof) (m : List (Nat × (Prio3State × Prio3Share))),
        pmResultLoop (P := P.withPrio3 Z) id N (ip :: ips) m = (prio3Client Z id N m ip >>= fun y =>
          pmResultLoop (P := P.withPrio3 Z) id N ips y.1 >>= fun z => .ok (z.1, y.2.toList ++ z.2)) := fun Z m => by
      rw [← prio3Client_eq (P := P)]
      rfl
    rw [step, step]
    rcases alike_client (N := N) (id := id) hz ip h with ⟨e, e', h1, h2⟩ | ⟨x, x', o, o', h1, h2, h3, h4, h5, h6⟩
    · rw [h1, h2]
      exact .inl ⟨_, _, rfl, rfl⟩
    · rw [h1, h2, ok_bind, ok_bind]
      dsimp only
      rcases alike_loop hz ips h3 with ⟨e, e', g1, g2⟩ | ⟨y, y', os, os', g1, g2, g3, g4, g5, g6⟩
      · rw [g1, g2]
        exact .inl ⟨_, _, rfl, rfl⟩
      · rw [g1, g2, ok_bind, ok_bind]
        refine .inr ⟨y, y', _, _, rfl, rfl, g3, ?_, ?_, ?_⟩
        · cases o <;> cases o' <;> simp_all
        · intro v hv
          rcases List.mem_append.1 hv with hv | hv
          · exact h5 v (by simpa using hv)
          · exact g5 v hv
        · intro v hv
          rcases List.mem_append.1 hv with hv | hv
          · exact h6 v (by simpa using hv)
          · exact g6 v hv

theorem aggregate_lengths {n : Nat} : ∀ {os : List (List Field128)}, (∀ v ∈ os, v.length = n) →
    ∃ a, prio3Aggregate n os = .ok a ∧ a.length = n := by
  unfold prio3Aggregate
  suffices ∀ (os : List (List Field128)) (a : List Field128), a.length = n → (∀ v ∈ os, v.length = n) →
      ∃ b, foldE (fun agg o => if o.length = agg.length then .ok (vecAdd agg o) else .error .unwrap) a os = .ok b ∧
        b.length = n from fun {os} h => this os _ (by simp) h
  intro os
  induction os with
  | nil => exact fun a ha _ => ⟨a, rfl, ha⟩
  | cons o os ih =>
    intro a ha h
    have ho := h o (by simp)
    rw [foldE, if_pos (ho.trans ha.symm), ok_bind]
    exact ih _ (by rw [vecAdd_length]; omega) fun v hv => h v (by simp [hv])

/-- The answers to the second request of a batch agree except for the sums. -/
theorem alike_result {c : ServerCfg} {kc : KeyCollection (P.withPrio3 Z)} {kc' : KeyCollection (P.withPrio3 Z')}
    (hz : ∀ a b, Z'.jointSeed a b = Z.jointSeed a b) (hl : kc.inputLen = kc'.inputLen)
    (h : StoredAlike kc.inputLen kc.pmState kc'.pmState) (peers : List (List Byte)) (s e : Nat) :
    (∃ x x', srvPmResult c kc peers s e = .error x ∧ srvPmResult c kc' peers s e = .error x') ∨
    ∃ m m' a a' rej, srvPmResult c kc peers s e = .ok ({ kc with pmState := m }, a, rej) ∧
      srvPmResult c kc' peers s e = .ok ({ kc' with pmState := m' }, a', rej) ∧ StoredAlike kc.inputLen m m' ∧
      a.length = kc.inputLen ∧ a'.length = kc.inputLen := by
  unfold srvPmResult
  rw [← hl]
  have hok : (P.withPrio3 Z').prio3Ok kc.inputLen = (P.withPrio3 Z).prio3Ok kc.inputLen := rfl
  rw [hok]
  by_cases hp : !(P.withPrio3 Z).prio3Ok kc.inputLen
  · rw [if_pos hp, if_pos hp]
    exact .inl ⟨_, _, rfl, rfl⟩
  · rw [if_neg hp, if_neg hp]
    rcases alike_loop (P := P) (N := kc.inputLen) (id := c.serverId) hz ((rangeFrom s e).zip peers) h with
      ⟨x, x', h1, h2⟩ | ⟨m, m', os, os', h1, h2, h3, h4, h5, h6⟩
    · rw [h1, h2]
      exact .inl ⟨_, _, rfl, rfl⟩
    · rw [h1, h2, ok_bind, ok_bind]
      dsimp only
      rw [← h4]
      cases rejectedCount c.build s e os.length with
      | error x => exact .inl ⟨_, _, rfl, rfl⟩
      | ok rej =>
        obtain ⟨a, g1, g2⟩ := aggregate_lengths h5
        obtain ⟨a', g1', g2'⟩ := aggregate_lengths h6
        rw [ok_bind, ok_bind, g1, g1']
        exact .inr ⟨m, m', a, a', rej, rfl, rfl, h3, g2, g2'⟩

/-- A server with reports `0` to `N - 1` and their preparation states and shares. -/
def PmPrep (c : ServerCfg) (kc : KeyCollection P) (N : Nat) (F : Nat → P.PrepState × P.PrepShare) : Prop :=
  ∀ i < N, pmValidateClient kc c.serverId.toNat i = .ok (i, F i)

theorem prep_validate {c : ServerCfg} {kc : KeyCollection P} {N : Nat} {F : Nat → P.PrepState × P.PrepShare}
    (h : PmPrep c kc N F) (hid : 0 ≤ c.serverId) (hok : P.prio3Ok kc.inputLen = true) {s e : Nat} (hs : s ≤ e)
    (he : e ≤ N) :
    srvPmValidate c kc s e = .ok ({ kc with pmState := (rangeFrom s e).foldl (fun m i => mapInsert m i (F i)) kc.pmState },
      encoded P F (s, e)) := by
  unfold srvPmValidate withCapacity aggIdOf
  rw [if_pos hs, if_pos hid, ok_bind, ok_bind, if_neg (by simp [hok])]
  have : mapE (pmValidateClient kc c.serverId.toNat) (rangeFrom s e) = .ok ((rangeFrom s e).map fun i => (i, F i)) := by
    rw [mapE_eq_ok_iff_getElem]
    refine ⟨by simp, fun j i hj => ⟨_, ?_, h i ?_⟩⟩
    · rw [List.getElem?_map, hj]; rfl
    · have := (rangeFrom_mem.1 (List.mem_of_getElem? hj)).2
      omega
  rw [this]
  simp only [ok_bind, List.map_map, List.foldl_map]
  rfl

theorem handle_error {c : ServerCfg} {kc : KeyCollection P} {r : Req} {e : Panic} (hp : preLock c r = .ok ())
    (h : locked c kc r = .error e) : (Server.running kc).handle c r = (.poisoned, .error e) := by
  unfold Server.handle
  simp only [hp, h]

theorem handle_ok {c : ServerCfg} {kc kc' : KeyCollection P} {r : Req} {a : Resp} (hp : preLock c r = .ok ())
    (h : locked c kc r = .ok (kc', a)) : (Server.running kc).handle c r = (.running kc', .ok a) := by
  unfold Server.handle
  simp only [hp, h]

/-- The batches of plain metrics. -/
theorem same_pmLoop (b : Bool) {c : ServerCfg} {cfg : Config} {N : Nat} {F F' : Nat → Prio3State × Prio3Share}
    (hz : ∀ a b, Z'.jointSeed a b = Z.jointSeed a b) (hid : 0 ≤ c.serverId)
    (hok : P.prio3Ok cfg.histBuckets = true) (hF : ∀ i < N, PrepAlike cfg.histBuckets (F i) (F' i)) :
    ∀ (rs : List (Nat × Nat)) {kc : KeyCollection (P.withPrio3 Z)} {kc' : KeyCollection (P.withPrio3 Z')}
    {f f' : List PmOut → Prog α},
    kc.inputLen = cfg.histBuckets → kc'.inputLen = cfg.histBuckets →
    PmPrep (P := P.withPrio3 Z) c kc N F → PmPrep (P := P.withPrio3 Z') c kc' N F' →
    StoredAlike cfg.histBuckets kc.pmState kc'.pmState →
    (∀ r ∈ rs, r.1 < r.2 ∧ r.2 ≤ N) → (∀ o, ∃ a, f o = .ret a) → (∀ o, ∃ a, f' o = .ret a) →
    SameTold b c (.running kc) (pmLoopP (P.withPrio3 Z) cfg rs >>= f) (.running kc') (pmLoopP (P.withPrio3 Z') cfg rs >>= f')
  | [], kc, kc', f, f', _, _, _, _, _, _, hf, hf' => by
    obtain ⟨a, e⟩ := hf []
    obtain ⟨a', e'⟩ := hf' []
    show SameTold b c _ (f []) _ (f' [])
    rw [e, e']
    exact same_ret _ _ _ _ _ _
  | r :: rs, kc, kc', f, f', hn, hn', h, h', hk, hr, hf, hf' => by
    obtain ⟨h1, h2⟩ := hr r (by simp)
    rw [pmLoopP, pmLoopP]
    unfold pmBatchP
    simp only [prog_bind_assoc]
    have hg : ∀ (x : Bool) (r : Req), Pair.get (r, r) x = r := fun x r => by cases x <;> rfl
    have pl : preLock c (.pmValidate r.1 r.2) = .ok () := by simp [preLock, h1]
    have hv : (Server.running kc).handle c (.pmValidate r.1 r.2) = (.running { kc with
          pmState := (rangeFrom r.1 r.2).foldl (fun m i => mapInsert m i (F i)) kc.pmState },
          .ok (.bytes (encoded (P.withPrio3 Z) F r))) := by
      unfold Server.handle
      simp only [pl, locked, prep_validate h hid (by rw [hn]; exact hok) h1.le h2, ok_bind]
    have hv' : (Server.running kc').handle c (.pmValidate r.1 r.2) = (.running { kc' with
          pmState := (rangeFrom r.1 r.2).foldl (fun m i => mapInsert m i (F' i)) kc'.pmState },
          .ok (.bytes (encoded (P.withPrio3 Z) F r))) := by
      have e : encoded (P.withPrio3 Z') F' r = encoded (P.withPrio3 Z) F r := by
        refine List.map_congr_left fun i hi => ?_
        have := (rangeFrom_mem.1 hi).2
        exact congrArg prio3EncodeShare (hF i (by omega)).1.symm
      unfold Server.handle
      rw [← e]
      simp only [pl, locked, prep_validate h' hid (by rw [hn']; exact hok) h1.le h2, ok_bind]
    obtain ⟨enc, m, m', hv, hv', hst⟩ : ∃ (enc : List (List Byte)) (m m' : List (Nat × (Prio3State × Prio3Share))),
        (Server.running kc).handle c (.pmValidate r.1 r.2)
          = (.running ({ kc with pmState := m } : KeyCollection (P.withPrio3 Z)), .ok (.bytes enc)) ∧
        (Server.running kc').handle c (.pmValidate r.1 r.2)
          = (.running ({ kc' with pmState := m' } : KeyCollection (P.withPrio3 Z')), .ok (.bytes enc)) ∧
        StoredAlike cfg.histBuckets m m' :=
      ⟨_, _, _, hv, hv', alike_foldl _ (fun i hi => hF i (by have := (rangeFrom_mem.1 hi).2; omega)) hk⟩
    have rest : ∀ v : List (List Byte) × List (List Byte), SameTold b c (.running ({ kc with pmState := m } : KeyCollection (P.withPrio3 Z)))
        (Prog.lift (assertE (v.1.length == r.2 - r.1)) >>= fun _ => Prog.lift (assertE (v.2.length == r.2 - r.1)) >>= fun _ =>
          callAggregate (.pmResult v.2 r.1 r.2) (.pmResult v.1 r.1 r.2) >>= fun a =>
          Prog.lift (assertE (a.1.2 == a.2.2)) >>= fun _ =>
          Prog.lift (unwrapO ((P.withPrio3 Z).prio3Unshard cfg.histBuckets a.1.1 a.2.1 (r.2 - r.1 - a.1.2))) >>= fun res =>
          Prog.ret { rejected := a.1.2, result := res } >>= fun o =>
          pmLoopP (P.withPrio3 Z) cfg rs >>= fun os => Prog.ret (o :: os) >>= f)
        (.running ({ kc' with pmState := m' } : KeyCollection (P.withPrio3 Z')))
        (Prog.lift (assertE (v.1.length == r.2 - r.1)) >>= fun _ => Prog.lift (assertE (v.2.length == r.2 - r.1)) >>= fun _ =>
          callAggregate (.pmResult v.2 r.1 r.2) (.pmResult v.1 r.1 r.2) >>= fun a =>
          Prog.lift (assertE (a.1.2 == a.2.2)) >>= fun _ =>
          Prog.lift (unwrapO ((P.withPrio3 Z').prio3Unshard cfg.histBuckets a.1.1 a.2.1 (r.2 - r.1 - a.1.2))) >>= fun res =>
          Prog.ret { rejected := a.1.2, result := res } >>= fun o =>
          pmLoopP (P.withPrio3 Z') cfg rs >>= fun os => Prog.ret (o :: os) >>= f') := by
      intro v
      refine same_lift fun _ _ => same_lift fun _ _ => ?_
      obtain ⟨peers, hpeers⟩ : ∃ peers, Pair.get (Req.pmResult v.2 r.1 r.2, Req.pmResult v.1 r.1 r.2) (!b)
          = .pmResult peers r.1 r.2 := by cases b <;> exact ⟨_, rfl⟩
      have pl : preLock c (.pmResult peers r.1 r.2) = .ok () := by simp [preLock, h1]
      rcases alike_result (c := c) (kc := { kc with pmState := m }) (kc' := { kc' with pmState := m' }) hz
        (hn.trans hn'.symm) (by rw [← hn] at hst; exact hst) peers r.1 r.2 with
        ⟨e, e', g1, g2⟩ | ⟨x, x', a, a', rej, g1, g2, g3, g4, g5⟩
      · refine same_ask rfl (.inl ⟨.poisoned, .poisoned, e, e', ?_, ?_⟩)
        · rw [hpeers]
          refine handle_error pl ?_
          show (srvPmResult c _ peers r.1 r.2 >>= _) = _
          rw [g1]; rfl
        · rw [hpeers]
          refine handle_error pl ?_
          show (srvPmResult c _ peers r.1 r.2 >>= _) = _
          rw [g2]; rfl
      · have hn1 : ({ kc with pmState := m } : KeyCollection (P.withPrio3 Z)).inputLen = cfg.histBuckets := hn
        rw [hn1] at g3 g4 g5
        have go : ∀ o o', SameTold b c (.running ({ kc with pmState := x } : KeyCollection (P.withPrio3 Z)))
            (pmLoopP (P.withPrio3 Z) cfg rs >>= fun os => f (o :: os)) (.running ({ kc' with pmState := x' } : KeyCollection (P.withPrio3 Z')))
            (pmLoopP (P.withPrio3 Z') cfg rs >>= fun os => f' (o' :: os)) := fun o o' =>
          same_pmLoop b hz hid hok hF rs (kc := { kc with pmState := x }) (kc' := { kc' with pmState := x' }) hn hn' h h' g3
            (fun r hr' => hr r (by simp [hr'])) (fun _ => hf _) (fun _ => hf' _)
        have fin : ∀ (A A' B B' : List Field128) (k k' : Nat), A.length = A'.length → B.length = B'.length →
            SameTold b c (.running ({ kc with pmState := x } : KeyCollection (P.withPrio3 Z)))
            (Prog.lift (assertE (k == k')) >>= fun _ =>
              Prog.lift (unwrapO ((P.withPrio3 Z).prio3Unshard cfg.histBuckets A B (r.2 - r.1 - k))) >>= fun res =>
              Prog.ret { rejected := k, result := res } >>= fun o =>
              pmLoopP (P.withPrio3 Z) cfg rs >>= fun os => Prog.ret (o :: os) >>= f)
            (.running ({ kc' with pmState := x' } : KeyCollection (P.withPrio3 Z')))
            (Prog.lift (assertE (k == k')) >>= fun _ =>
              Prog.lift (unwrapO ((P.withPrio3 Z').prio3Unshard cfg.histBuckets A' B' (r.2 - r.1 - k))) >>= fun res =>
              Prog.ret { rejected := k, result := res } >>= fun o =>
              pmLoopP (P.withPrio3 Z') cfg rs >>= fun os => Prog.ret (o :: os) >>= f') := by
          intro A A' B B' k k' hA hB
          refine same_lift fun _ _ => ?_
          show SameTold b c _ (Prog.lift (unwrapO (prio3Result cfg.histBuckets A B)) >>= _) _
            (Prog.lift (unwrapO (prio3Result cfg.histBuckets A' B')) >>= _)
          unfold prio3Result
          rw [← hA, ← hB]
          split
          · exact go _ _
          · exact same_panic _ _ _ _ _ _
        refine same_ask (by rfl) (.inr ⟨.running { kc with pmState := x }, .running { kc' with pmState := x' },
          .aggregate a rej, .aggregate a' rej, ?_, ?_, fun l => ?_⟩)
        · rw [hpeers]
          refine handle_ok pl ?_
          show (srvPmResult c _ peers r.1 r.2 >>= _) = _
          rw [g1]; rfl
        · rw [hpeers]
          refine handle_ok pl ?_
          show (srvPmResult c _ peers r.1 r.2 >>= _) = _
          rw [g2]; rfl
        · cases b
          · cases l <;> first | exact fin _ _ _ _ _ _ rfl (g4.trans g5.symm) | exact same_panic _ _ _ _ _ _
          · cases l <;> first | exact fin _ _ _ _ _ _ (g4.trans g5.symm) rfl | exact same_panic _ _ _ _ _ _
    refine same_ask rfl (.inr ⟨_, _, _, _, (congrArg _ (hg _ _)).trans hv, (congrArg _ (hg _ _)).trans hv', fun l => ?_⟩)
    cases b <;> cases l <;> first | exact rest (_, _) | exact same_panic _ _ _ _ _ _

end Mastic
