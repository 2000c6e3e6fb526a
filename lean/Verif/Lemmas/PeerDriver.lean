import Verif.Lemmas.Peer
import Verif.Lemmas.Replies

/-!
# Lemmas: a weighted-heavy-hitters run against a lying server, with two assignments of weights
-/

namespace Mastic

variable {Q Q' : Prims} {n d m N : Nat} {α : Type} {b : Bool} {c : ServerCfg} {C C' : List Sheet} {cfg : Config}

/-- A request to both servers. -/
theorem same_call {kc : KeyCollection Q} {kc' : KeyCollection Q'} {r : Req} {K K' : Resp → Resp → Prog α}
    {R : KeyCollection Q × Resp → KeyCollection Q' × Resp → Prop} (hp : preLock c r = .ok ())
    (h : ExRel R (locked c kc r) (locked c kc' r))
    (go : ∀ x y, R x y → ∀ l, SameTold b c (.running x.1) (K (if b then x.2 else l) (if b then l else x.2))
      (.running y.1) (K' (if b then y.2 else l) (if b then l else y.2))) :
    SameTold b c (.running kc) (.ask r r K) (.running kc') (.ask r r K') := by
  have hg : Pair.get (r, r) (!b) = r := by cases b <;> rfl
  refine same_ask rfl ?_
  rw [hg]
  unfold Server.handle
  simp only [hp]
  cases e : locked c kc r with
  | error p =>
    rw [e] at h
    cases e' : locked c kc' r with
    | error q => exact .inl ⟨_, _, _, _, rfl, rfl⟩
    | ok y => rw [e'] at h; exact absurd h (by simp [ExRel])
  | ok x =>
    rw [e] at h
    cases e' : locked c kc' r with
    | error q => rw [e'] at h; exact absurd h (by simp [ExRel])
    | ok y =>
      rw [e'] at h
      exact .inr ⟨_, _, _, _, rfl, rfl, go x y h⟩

/-- A request that is answered by `done`. -/
theorem same_unit {kc : KeyCollection Q} {kc' : KeyCollection Q'} {r : Req} {f f' : Unit → Prog α}
    {R : KeyCollection Q → KeyCollection Q' → Prop} {g : Exec (KeyCollection Q)} {g' : Exec (KeyCollection Q')}
    (hp : preLock c r = .ok ()) (e : locked c kc r = g >>= fun k => .ok (k, .done))
    (e' : locked c kc' r = g' >>= fun k => .ok (k, .done)) (h : ExRel R g g')
    (go : ∀ x y, R x y → SameTold b c (.running x) (f ()) (.running y) (f' ())) :
    SameTold b c (.running kc) (callDone r r >>= f) (.running kc') (callDone r r >>= f') := by
  refine same_call (R := fun x y => R x.1 y.1 ∧ x.2 = .done ∧ y.2 = .done) hp ?_ ?_
  · rw [e, e']
    exact h.bind fun x y hxy => ⟨hxy, rfl, rfl⟩
  · rintro ⟨x, _⟩ ⟨y, _⟩ ⟨hxy, rfl, rfl⟩ l
    cases b <;> cases l <;> first | exact go x y hxy | exact same_panic _ _ _ _ _ _

theorem cntEq_refl (v : List (List Field128)) : List.Forall₂ (CntEq n) v v := forall₂_refl_of (R := CntEq n) (fun _ => rfl) v

theorem same_levelLoop (hC : List.Forall₂ (SheetTwin n d) C C') (hf : ∀ s ∈ C, s.Fits Q n d)
    (hf' : ∀ s ∈ C', s.Fits Q' n d) (hb : Q.blake3 = Q'.blake3) (hmr : merkleRoots Q = merkleRoots Q')
    (hn : cfg.histBuckets = n) (hm : m < d) :
    ∀ (fuel : Nat) (req : CrawlReq) {kc : KeyCollection Q} {kc' : KeyCollection Q'} {f f' : List Bool → Prog α},
    Core n d C C' kc kc' → Front n m C C' (if req.malicious = [] then kc.frontier else kc.prevFrontier)
      (if req.malicious = [] then kc'.frontier else kc'.prevFrontier) →
    (∀ keep (k : KeyCollection Q) (k' : KeyCollection Q'), Core n d C C' k k' →
      Front n (m + 1) C C' k.frontier k'.frontier → SameTold b c (.running k) (f keep) (.running k') (f' keep)) →
    SameTold b c (.running kc) (levelLoopP cfg N fuel req >>= f) (.running kc') (levelLoopP cfg N fuel req >>= f')
  | 0, _, _, _, _, _, _, _, _ => same_panic _ _ _ _ _ _
  | fuel + 1, req, kc, kc', f, f', h, hfr, hgo => by
    rw [levelLoopP, prog_bind_assoc, prog_bind_assoc]
    refine same_call (R := fun x y => Core n d C C' x.1 y.1 ∧ Front n (m + 1) C C' x.1.frontier y.1.frontier ∧
        Front n m C C' x.1.prevFrontier y.1.prevFrontier ∧ ∃ r r', x.2 = .crawl r ∧ y.2 = .crawl r' ∧ SameCrawl n r r')
      rfl ?_ ?_
    · simp only [locked]
      refine (treeCrawl_peer hC hf hf' hb hmr h c.build req.splitBy req.malicious req.isLast hm hfr).bind ?_
      rintro ⟨x, r⟩ ⟨y, r'⟩ ⟨g1, g2, g3, g4⟩
      exact ⟨g1, g2, g3, r, r', rfl, rfl, g4⟩
    rintro ⟨x, _⟩ ⟨y, _⟩ ⟨g1, g2, g3, r, r', rfl, rfl, e1, e2, e3⟩ l
    have key : ∀ r0 r1 r0' r1' : CrawlResp, SameCrawl n r0 r0' → SameCrawl n r1 r1' → SameTold b c (.running x)
        ((Prog.lift (assertE (r0.cntValues.length == r1.cntValues.length)) >>= fun _ =>
          Prog.lift (keepValues cfg.histBuckets (max 1 cfg.threshold) r0.cntValues r1.cntValues) >>= fun keep =>
          if r0.roots.isEmpty then .ret keep
          else Prog.lift (diffIndices r0 r1) >>= fun malicious =>
            if malicious.isEmpty then .ret keep
            else if N ≤ req.splitBy then
              if req.isLast then .ret keep
              else levelLoopP cfg N fuel { splitBy := req.splitBy, malicious, isLast := true }
            else levelLoopP cfg N fuel { splitBy := req.splitBy * 2, malicious, isLast := req.isLast }) >>= f)
        (.running y)
        ((Prog.lift (assertE (r0'.cntValues.length == r1'.cntValues.length)) >>= fun _ =>
          Prog.lift (keepValues cfg.histBuckets (max 1 cfg.threshold) r0'.cntValues r1'.cntValues) >>= fun keep =>
          if r0'.roots.isEmpty then .ret keep
          else Prog.lift (diffIndices r0' r1') >>= fun malicious =>
            if malicious.isEmpty then .ret keep
            else if N ≤ req.splitBy then
              if req.isLast then .ret keep
              else levelLoopP cfg N fuel { splitBy := req.splitBy, malicious, isLast := true }
            else levelLoopP cfg N fuel { splitBy := req.splitBy * 2, malicious, isLast := req.isLast }) >>= f') := by
      rintro r0 r1 r0' r1' ⟨a1, a2, a3⟩ ⟨b1, b2, b3⟩
      rw [a3.length_eq, b3.length_eq, hn, keepValues_twin a3 b3, a1, diffIndices_congr a1 b1 a2 b2]
      simp only [prog_bind_assoc]
      refine same_lift fun _ _ => same_lift fun keep _ => ?_
      split
      · exact hgo keep x y g1 g2
      · simp only [prog_bind_assoc]
        refine same_lift fun mal _ => ?_
        split
        · exact hgo keep x y g1 g2
        · rename_i hne
          have hne' : mal ≠ [] := by simpa using hne
          split
          · split
            · exact hgo keep x y g1 g2
            · exact same_levelLoop hC hf hf' hb hmr hn hm fuel _ g1 (by simpa [hne'] using g3) hgo
          · exact same_levelLoop hC hf hf' hb hmr hn hm fuel _ g1 (by simpa [hne'] using g3) hgo
    have refl : ∀ r, SameCrawl n r r := fun r => ⟨rfl, rfl, cntEq_refl _⟩
    cases b <;> cases l <;>
      first | exact key _ _ _ _ (refl _) ⟨e1, e2, e3⟩ | exact key _ _ _ _ ⟨e1, e2, e3⟩ (refl _) | exact same_panic _ _ _ _ _ _

theorem same_level (hC : List.Forall₂ (SheetTwin n d) C C') (hf : ∀ s ∈ C, s.Fits Q n d)
    (hf' : ∀ s ∈ C', s.Fits Q' n d) (hb : Q.blake3 = Q'.blake3) (hmr : merkleRoots Q = merkleRoots Q')
    (hn : cfg.histBuckets = n) (hm : m < d) {kc : KeyCollection Q} {kc' : KeyCollection Q'} {f f' : Unit → Prog α}
    (h : Core n d C C' kc kc') (hfr : Front n m C C' kc.frontier kc'.frontier)
    (hgo : ∀ (k : KeyCollection Q) (k' : KeyCollection Q'), Core n d C C' k k' →
      Front n (m + 1) C C' k.frontier k'.frontier → SameTold b c (.running k) (f ()) (.running k') (f' ())) :
    SameTold b c (.running kc) (levelP cfg N >>= f) (.running kc') (levelP cfg N >>= f') := by
  unfold levelP
  rw [prog_bind_assoc, prog_bind_assoc]
  refine same_levelLoop hC hf hf' hb hmr hn hm _ _ h (by simpa using hfr) fun keep k k' hk hkf => ?_
  exact same_unit rfl rfl rfl (treePrune_peer hk hkf keep) fun x y hxy => hgo x y hxy.1 hxy.2

/-! ### The proofs of the clients -/

theorem flpLoopP_congr (bld : Build) (hfd : Q.flpDecide = Q'.flpDecide) : ∀ (fuel start : Nat) (keep : List Bool),
    flpLoopP Q bld cfg N fuel start keep = flpLoopP Q' bld cfg N fuel start keep
  | 0, _, _ => rfl
  | fuel + 1, start, keep => by
    have : decideShares Q cfg.histBuckets = decideShares Q' cfg.histBuckets := by
      funext e
      unfold decideShares
      rw [hfd]
    rw [flpLoopP, flpLoopP, this]
    simp only [flpLoopP_congr bld hfd fuel]

/-- The answers to the queries about the proofs. -/
def SameFlp (bld : Build) (N : Nat) (kc : KeyCollection Q) (kc' : KeyCollection Q') : Prop :=
  ∀ s e, s < e → e ≤ N → ∃ v, kc.runFlpQueries bld s e = .ok v ∧ kc'.runFlpQueries bld s e = .ok v

theorem same_flpLoop {bld : Build} (hq : 1 ≤ cfg.queryBatch) {kc : KeyCollection Q} {kc' : KeyCollection Q'}
    (h : SameFlp c.build N kc kc') {f f' : List Bool → Prog α}
    (hgo : ∀ keep, SameTold b c (.running kc) (f keep) (.running kc') (f' keep)) : ∀ (fuel start : Nat) (keep : List Bool),
    SameTold b c (.running kc) (flpLoopP Q bld cfg N fuel start keep >>= f)
      (.running kc') (flpLoopP Q bld cfg N fuel start keep >>= f')
  | 0, start, keep => by
    rw [flpLoopP]
    split
    · exact same_panic _ _ _ _ _ _
    · exact hgo keep
  | fuel + 1, start, keep => by
    rw [flpLoopP]
    split
    · rename_i hlt
      obtain ⟨v, e1, e2⟩ := h start (min N (start + cfg.queryBatch)) (by omega) (by omega)
      have hda : debugAssert c.build (decide (start < min N (start + cfg.queryBatch))) = .ok () := by
        rw [decide_eq_true (by omega)]
        cases c.build <;> rfl
      rw [prog_bind_assoc, prog_bind_assoc]
      refine same_call (R := fun x y => x = (kc, .fieldVecs v) ∧ y = (kc', .fieldVecs v)) rfl ?_ ?_
      · simp only [locked, hda, e1, e2, ok_bind]
        exact ⟨rfl, rfl⟩
      rintro _ _ ⟨rfl, rfl⟩ l
      have key : ∀ v : List (List Field128) × List (List Field128), SameTold b c (.running kc)
          ((Prog.lift (debugAssert bld (v.1.length == v.2.length)) >>= fun _ =>
            Prog.lift (mapE (decideShares Q cfg.histBuckets) (v.1.zip v.2)) >>= fun ks =>
            flpLoopP Q bld cfg N fuel (start + cfg.queryBatch) (keep ++ ks)) >>= f) (.running kc')
          ((Prog.lift (debugAssert bld (v.1.length == v.2.length)) >>= fun _ =>
            Prog.lift (mapE (decideShares Q cfg.histBuckets) (v.1.zip v.2)) >>= fun ks =>
            flpLoopP Q bld cfg N fuel (start + cfg.queryBatch) (keep ++ ks)) >>= f') := by
        intro v
        simp only [prog_bind_assoc]
        exact same_lift fun _ _ => same_lift fun ks _ => same_flpLoop hq h hgo fuel _ _
      cases b <;> cases l <;> first | exact key (_, _) | exact same_panic _ _ _ _ _ _
    · exact hgo keep

theorem same_flp {bld : Build} (hfd : Q.flpDecide = Q'.flpDecide) (hq : 1 ≤ cfg.queryBatch) {kc : KeyCollection Q}
    {kc' : KeyCollection Q'} (h : Core n d C C' kc kc') (hfr : Front n m C C' kc.frontier kc'.frontier)
    (hs : SameFlp c.build N kc kc') {f f' : Unit → Prog α}
    (hgo : ∀ (k : KeyCollection Q) (k' : KeyCollection Q'), Core n d C C' k k' →
      Front n m C C' k.frontier k'.frontier → SameTold b c (.running k) (f ()) (.running k') (f' ())) :
    SameTold b c (.running kc) (flpP Q bld cfg N >>= f) (.running kc') (flpP Q' bld cfg N >>= f') := by
  unfold flpP
  rw [← flpLoopP_congr bld hfd, prog_bind_assoc, prog_bind_assoc]
  refine same_flpLoop hq hs (fun keep => ?_) _ _ _
  exact same_unit rfl rfl rfl (applyFlp_peer h hfr keep) fun x y hxy => hgo x y hxy.1 hxy.2

theorem levelsP_cons (bld : Build) (l : Nat) (ls : List Nat) : levelsP Q bld cfg N (l :: ls)
    = ((if l = 0 then flpP Q bld cfg N else .ret ()) >>= fun _ => levelP cfg N >>= fun _ => levelsP Q bld cfg N ls) := by
  rw [levelsP]
  split <;> rfl

theorem same_levels {bld : Build} (hC : List.Forall₂ (SheetTwin n d) C C') (hf : ∀ s ∈ C, s.Fits Q n d)
    (hf' : ∀ s ∈ C', s.Fits Q' n d) (hb : Q.blake3 = Q'.blake3) (hmr : merkleRoots Q = merkleRoots Q')
    (hfd : Q.flpDecide = Q'.flpDecide) (hq : 1 ≤ cfg.queryBatch) (hn : cfg.histBuckets = n) {f f' : Unit → Prog α} :
    ∀ (k m : Nat) {kc : KeyCollection Q} {kc' : KeyCollection Q'}, m + k ≤ d → Core n d C C' kc kc' →
    Front n m C C' kc.frontier kc'.frontier → (m = 0 → SameFlp c.build N kc kc') →
    (∀ (k' : KeyCollection Q) (k'' : KeyCollection Q'), Core n d C C' k' k'' →
      Front n (m + k) C C' k'.frontier k''.frontier → SameTold b c (.running k') (f ()) (.running k'') (f' ())) →
    SameTold b c (.running kc) (levelsP Q bld cfg N (List.range' m k) >>= f)
      (.running kc') (levelsP Q' bld cfg N (List.range' m k) >>= f')
  | 0, m, kc, kc', _, h, hfr, _, hgo => hgo kc kc' h hfr
  | k + 1, m, kc, kc', hk, h, hfr, hs, hgo => by
    rw [List.range'_succ, levelsP_cons, levelsP_cons]
    simp only [prog_bind_assoc]
    have next : ∀ (k1 : KeyCollection Q) (k1' : KeyCollection Q'), Core n d C C' k1 k1' →
        Front n m C C' k1.frontier k1'.frontier → SameTold b c (.running k1)
          (levelP cfg N >>= fun _ => levelsP Q bld cfg N (List.range' (m + 1) k) >>= f) (.running k1')
          (levelP cfg N >>= fun _ => levelsP Q' bld cfg N (List.range' (m + 1) k) >>= f') := by
      intro k1 k1' h1 h1f
      refine same_level hC hf hf' hb hmr hn (by omega) h1 h1f fun k2 k2' h2 h2f => ?_
      refine same_levels hC hf hf' hb hmr hfd hq hn k (m + 1) (by omega) h2 h2f (fun h => by omega) ?_
      intro x y hx hxf
      exact hgo x y hx (by rwa [show m + (k + 1) = m + 1 + k by omega])
    split
    · rename_i hm
      exact same_flp hfd hq h hfr (hs hm) next
    · exact next kc kc' h hfr

/-! ### The last level -/

theorem same_proofLoop (hq : 1 ≤ cfg.queryBatch) {kc : KeyCollection Q} {kc' : KeyCollection Q'}
    (h : kc.finalProofs = kc'.finalProofs) {f f' : Unit → Prog α}
    (hgo : SameTold b c (.running kc) (f ()) (.running kc') (f' ())) : ∀ (fuel start : Nat),
    SameTold b c (.running kc) (proofLoopP cfg N fuel start >>= f) (.running kc') (proofLoopP cfg N fuel start >>= f')
  | 0, start => by
    rw [proofLoopP]
    split
    · exact same_panic _ _ _ _ _ _
    · exact hgo
  | fuel + 1, start => by
    rw [proofLoopP]
    split
    · rename_i hlt
      have hda : debugAssert c.build (decide (start < min N (start + cfg.queryBatch))) = .ok () := by
        rw [decide_eq_true (by omega)]
        cases c.build <;> rfl
      have hpf : kc.getProofs start (min N (start + cfg.queryBatch)) = kc'.getProofs start (min N (start + cfg.queryBatch)) := by
        unfold KeyCollection.getProofs
        rw [h]
      obtain ⟨v, hv⟩ : ∃ v, v = kc.getProofs start (min N (start + cfg.queryBatch)) := ⟨_, rfl⟩
      rw [prog_bind_assoc, prog_bind_assoc]
      refine same_call (R := fun x y => x = (kc, .proofs v) ∧ y = (kc', .proofs v)) rfl ?_ ?_
      · simp only [locked, hda, ← hpf, ← hv, ok_bind]
        exact ⟨rfl, rfl⟩
      rintro _ _ ⟨rfl, rfl⟩ l
      have key : ∀ h : List Block × List Block, SameTold b c (.running kc)
          ((Prog.lift (assertE (h.1.length == h.2.length)) >>= fun _ =>
            Prog.lift (assertE ((h.1.zip h.2).all fun hh => hh.1 == hh.2)) >>= fun _ =>
            proofLoopP cfg N fuel (start + cfg.queryBatch)) >>= f) (.running kc')
          ((Prog.lift (assertE (h.1.length == h.2.length)) >>= fun _ =>
            Prog.lift (assertE ((h.1.zip h.2).all fun hh => hh.1 == hh.2)) >>= fun _ =>
            proofLoopP cfg N fuel (start + cfg.queryBatch)) >>= f') := by
        intro v
        simp only [prog_bind_assoc]
        exact same_lift fun _ _ => same_lift fun _ _ => same_proofLoop hq h hgo fuel _
      cases b <;> cases l <;> first | exact key (_, _) | exact same_panic _ _ _ _ _ _
    · exact hgo

theorem same_levelLast (hC : List.Forall₂ (SheetTwin n d) C C') (hf : ∀ s ∈ C, s.Fits Q n d)
    (hf' : ∀ s ∈ C', s.Fits Q' n d) (hq : 1 ≤ cfg.queryBatch) (hn : cfg.histBuckets = n) (hm : m < d)
    {kc : KeyCollection Q} {kc' : KeyCollection Q'} (h : Core n d C C' kc kc')
    (hfr : Front n m C C' kc.frontier kc'.frontier) :
    SameTold b c (.running kc) (levelLastP cfg N) (.running kc') (levelLastP cfg N) := by
  unfold levelLastP
  refine same_call (R := fun x y => Core n d C C' x.1 y.1 ∧ Front n (m + 1) C C' x.1.frontier y.1.frontier ∧
      ∃ v v', x.2 = .fieldVecs v ∧ y.2 = .fieldVecs v' ∧ List.Forall₂ (CntEq n) v v') rfl ?_ ?_
  · simp only [locked]
    refine (treeCrawlLast_peer hC hf hf' h hm hfr).bind ?_
    rintro ⟨x, v⟩ ⟨y, v'⟩ ⟨g1, g2, g3⟩
    exact ⟨g1, g2, v, v', rfl, rfl, g3⟩
  rintro ⟨x, _⟩ ⟨y, _⟩ ⟨g1, g2, v, v', rfl, rfl, e⟩ l
  have key : ∀ v0 v1 v0' v1' : List (List Field128), List.Forall₂ (CntEq n) v0 v0' → List.Forall₂ (CntEq n) v1 v1' →
      SameTold b c (.running x)
        (Prog.lift (assertE (v0.length == v1.length)) >>= fun _ =>
          Prog.lift (keepValues cfg.histBuckets (max 1 cfg.threshold) v0 v1) >>= fun keep =>
          proofLoopP cfg N N 0 >>= fun _ => callDone (.treePrune keep) (.treePrune keep) >>= fun _ =>
          callShares .finalShares .finalShares >>= fun sh => Prog.lift (unwrapO cfg.dataBits) >>= fun _ =>
          Prog.lift (finalValues cfg.histBuckets sh.1 sh.2) >>= fun results =>
          Prog.lift (printed cfg.histBuckets results) >>= fun pr => .ret (Shown.whh results pr)) (.running y)
        (Prog.lift (assertE (v0'.length == v1'.length)) >>= fun _ =>
          Prog.lift (keepValues cfg.histBuckets (max 1 cfg.threshold) v0' v1') >>= fun keep =>
          proofLoopP cfg N N 0 >>= fun _ => callDone (.treePrune keep) (.treePrune keep) >>= fun _ =>
          callShares .finalShares .finalShares >>= fun sh => Prog.lift (unwrapO cfg.dataBits) >>= fun _ =>
          Prog.lift (finalValues cfg.histBuckets sh.1 sh.2) >>= fun results =>
          Prog.lift (printed cfg.histBuckets results) >>= fun pr => .ret (Shown.whh results pr)) := by
    intro v0 v1 v0' v1' h0 h1
    rw [h0.length_eq, h1.length_eq, hn, keepValues_twin h0 h1]
    refine same_lift fun _ _ => same_lift fun keep _ => ?_
    refine same_proofLoop hq g1.final ?_ _ _
    refine same_unit rfl rfl rfl (treePrune_peer g1 g2 keep) fun k k' _ => ?_
    refine same_call (R := fun x y => ∃ v v', x.2 = .shares v ∧ y.2 = .shares v') rfl ⟨_, _, rfl, rfl⟩ ?_
    rintro ⟨x, _⟩ ⟨y, _⟩ ⟨v, v', rfl, rfl⟩ l
    have quiet : ∀ (u0 u1 u0' u1' : List HHResult), SameTold b c (.running x)
        (Prog.lift (unwrapO cfg.dataBits) >>= fun _ => Prog.lift (finalValues n u0 u1) >>= fun results =>
          Prog.lift (printed n results) >>= fun pr => .ret (Shown.whh results pr)) (.running y)
        (Prog.lift (unwrapO cfg.dataBits) >>= fun _ => Prog.lift (finalValues n u0' u1') >>= fun results =>
          Prog.lift (printed n results) >>= fun pr => .ret (Shown.whh results pr)) := by
      intro u0 u1 u0' u1'
      refine same_lift fun _ _ => fun lie got => ?_
      have one : ∀ {R : Prims} (s : Server R) (u0 u1 : List HHResult), (Spec.against b c lie
          (Prog.lift (finalValues n u0 u1) >>= fun results =>
            Prog.lift (printed n results) >>= fun pr => Prog.ret (Shown.whh results pr)) s got).1 = got := by
        intro R s u0 u1
        cases finalValues n u0 u1 with
        | error e => rfl
        | ok rs =>
          show (Spec.against b c lie (Prog.lift (printed n rs) >>= fun pr => Prog.ret (Shown.whh rs pr)) s got).1 = got
          cases printed n rs <;> rfl
      rw [one, one]
    cases b <;> cases l <;> first | exact quiet _ _ _ _ | exact same_panic _ _ _ _ _ _
  cases b <;> cases l <;>
    first | exact key _ _ _ _ (cntEq_refl _) e | exact key _ _ _ _ e (cntEq_refl _) | exact same_panic _ _ _ _ _ _

theorem same_whh {bld : Build} (hC : List.Forall₂ (SheetTwin n d) C C') (hf : ∀ s ∈ C, s.Fits Q n d)
    (hf' : ∀ s ∈ C', s.Fits Q' n d) (hb : Q.blake3 = Q'.blake3) (hmr : merkleRoots Q = merkleRoots Q')
    (hfd : Q.flpDecide = Q'.flpDecide) (hq : 1 ≤ cfg.queryBatch) (hn : cfg.histBuckets = n) (hd : cfg.dataBits = some d)
    (hd1 : 1 ≤ d) {kc : KeyCollection Q} {kc' : KeyCollection Q'} (h : Core n d C C' kc kc')
    (hs : ∀ k k', kc.treeInit = .ok k → kc'.treeInit = .ok k' → SameFlp c.build N k k') :
    SameTold b c (.running kc) (whhP Q bld cfg N) (.running kc') (whhP Q' bld cfg N) := by
  unfold whhP
  obtain ⟨k, k', e, e', h1, h2⟩ := treeInit_peer hf hf' h
  refine same_unit (R := fun x y => x = k ∧ y = k') rfl rfl rfl (by rw [e, e']; exact ⟨rfl, rfl⟩) ?_
  rintro _ _ ⟨rfl, rfl⟩
  have hl : levelCount bld cfg.dataBits = .ok (d - 1) := by
    rw [hd]
    cases bld <;> simp [levelCount, unwrapO] <;> omega
  refine same_ok hl hl ?_
  rw [List.range_eq_range']
  refine same_levels hC hf hf' hb hmr hfd hq hn (d - 1) 0 (by omega) h1 h2 (fun _ => hs _ _ e e') fun x y hx hxf => ?_
  exact same_levelLast hC hf hf' hq hn (by omega) hx hxf

end Mastic
