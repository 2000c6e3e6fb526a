import Verif.Spec.Run
import Verif.Props.Search

/-!
# Lemmas for whole runs on arbitrary reports
-/

namespace Mastic

variable {P : Prims}

/-- The specification's state matches the two servers' states. -/
structure RunAt (n d m : Nat) (s : Spec.RunState) (kcs : Pair2 P) : Prop where
  level : Spec.LevelState P n d m s.paths kcs
  fst : kcs.1.reportShares = s.r0
  snd : kcs.2.reportShares = s.r1

theorem anyIncluded_iff {r : List (Bool × ReportShare)} :
    Spec.anyIncluded r = true ↔ ∃ x ∈ r, x.1 = true := by
  simp [Spec.anyIncluded]

theorem anyIncluded_false {r : List (Bool × ReportShare)} :
    Spec.anyIncluded r = false ↔ ∀ x ∈ r, x.1 = false := by
  simp [Spec.anyIncluded]

theorem disagree_lt {n : Nat} {paths : List (List Bool)} {r0 r1 : List (Bool × ReportShare)} {c : Nat}
    (h : Spec.disagree P n paths r0 r1 c = true) : c < r0.length := by
  by_contra hge
  simp [Spec.disagree, List.getElem?_eq_none (Nat.le_of_not_lt hge)] at h

theorem blamed_iff {n : Nat} {s : Spec.RunState} {j : Nat} :
    Spec.blamed P n s j = true ↔
      ∃ c, Spec.disagree P n s.paths s.r0 s.r1 c = true ∧ Spec.rank s.r0 c = j := by
  simp only [Spec.blamed, List.any_eq_true, List.mem_range, Bool.and_eq_true, beq_iff_eq]
  constructor
  · rintro ⟨c, -, h⟩
    exact ⟨c, h⟩
  · rintro ⟨c, h⟩
    exact ⟨c, disagree_lt h.1, h⟩

/-- One level of the driver is one level of the specification. -/
theorem RunAt.level_run {n d m : Nat} {s : Spec.RunState} {kcs : Pair2 P} {cfg : Config}
    (h : RunAt n d m s kcs) (c0 c1 : ServerCfg) (hn : cfg.histBuckets = n) (hm : m < d)
    (hlog : ∀ x ≤ s.r0.length, P.ceilLog2 x = Nat.clog 2 x)
    (hsep : Spec.SeparatedAt P n s) :
    match Spec.levelRun P n (max 1 cfg.threshold) s with
    | .error e => runLevel c0 c1 cfg kcs s.r0.length = .error e
    | .ok s' => ∃ kcs', runLevel c0 c1 cfg kcs s.r0.length = .ok kcs' ∧ RunAt n d (m + 1) s' kcs' := by
  obtain ⟨r0, r1, paths⟩ := s
  obtain ⟨hL, rfl, rfl⟩ := h
  dsimp only at hL hsep ⊢
  unfold Spec.levelRun
  dsimp only
  by_cases hp : paths = []
  · rw [if_pos (.inl hp)]
    exact runLevel_empty (by simpa [hp] using hL.same.1) ..
  by_cases hi : Spec.anyIncluded kcs.1.reportShares = false
  · rw [if_pos (.inr hi)]
    exact C32_false_nobody hL c0 c1 _ hp hm (anyIncluded_false.1 hi)
  rw [if_neg (by simp [hp, hi])]
  rw [Bool.not_eq_false, anyIncluded_iff] at hi
  by_cases hd : (List.range kcs.1.reportShares.length).all fun c =>
      !Spec.disagree P n paths kcs.1.reportShares kcs.2.reportShares c
  · rw [if_pos hd]
    obtain ⟨kcs', e, e0, e1, hL'⟩ := C30_quiet (cfg := cfg) hL c0 c1 kcs.1.reportShares.length hn hp hm hi
      (fun c => by
        by_contra hc
        rw [Bool.not_eq_false] at hc
        have := List.all_eq_true.1 hd c (List.mem_range.2 (disagree_lt hc))
        simp [hc] at this)
    exact ⟨kcs', e, ⟨hL', e0, e1⟩⟩
  · rw [if_neg hd]
    have hdis : ∃ c, Spec.disagree P n paths kcs.1.reportShares kcs.2.reportShares c = true := by
      by_contra hno
      push Not at hno
      exact hd (List.all_eq_true.2 fun c _ => by simpa using hno c)
    obtain ⟨h1, h2, h3⟩ := runLevel_differ hL c0 c1 hn hp hm rfl rfl (hlog _ (included_le _)) (hsep hdis) hdis
      (bad := Spec.blamed P n ⟨kcs.1.reportShares, kcs.2.reportShares, paths⟩) (fun j => blamed_iff)
    rw [included_count] at h1 h2 h3
    by_cases hs : 2 ^ Nat.clog 2 (kcs.1.reportShares.countP Prod.fst) < kcs.1.reportShares.length
    · rw [if_pos hs]
      exact h1 hs
    · rw [if_neg hs]
      rw [not_lt] at hs
      by_cases ha : Spec.anyIncluded (Spec.dropClients
          (Spec.blamed P n ⟨kcs.1.reportShares, kcs.2.reportShares, paths⟩) kcs.1.reportShares) = true
      · rw [if_pos ha]
        obtain ⟨kcs', e, e0, e1, hL'⟩ := h3 hs (anyIncluded_iff.1 ha)
        exact ⟨kcs', e, ⟨hL', e0, e1⟩⟩
      · rw [if_neg ha]
        exact h2 hs (anyIncluded_false.1 (by simpa using ha))

/-- The first of the levels first. -/
theorem levelsRun_first {n T : Nat} (s : Spec.RunState) : ∀ k,
    Spec.levelsRun P n T (k + 1) s = (Spec.levelRun P n T s).bind (Spec.levelsRun P n T k)
  | 0 => by
    show (Except.ok s : Exec _).bind (Spec.levelRun P n T) = _
    show Spec.levelRun P n T s = _
    cases Spec.levelRun P n T s <;> rfl
  | k + 1 => by
    rw [Spec.levelsRun, levelsRun_first s k]
    cases Spec.levelRun P n T s <;> rfl

theorem levelRun_length {n T : Nat} {s s' : Spec.RunState} (h : Spec.levelRun P n T s = .ok s') :
    s'.r0.length = s.r0.length := by
  unfold Spec.levelRun at h
  split at h
  · cases h
  split at h
  · cases h; rfl
  split at h
  · cases h
  dsimp only at h
  split at h
  · cases h
    exact dropClients_length _ _
  · cases h

/-- Levels `m`, …, `m + k - 1` of the driver (`1 ≤ m`). -/
theorem RunAt.levels_run {n d m : Nat} {s : Spec.RunState} {kcs : Pair2 P} {cfg : Config}
    (h : RunAt n d m s kcs) (c0 c1 : ServerCfg) (bld : Build) (hn : cfg.histBuckets = n) (hm1 : 1 ≤ m)
    (num : Nat)
    (hlog : ∀ x ≤ num, P.ceilLog2 x = Nat.clog 2 x) (hnum : s.r0.length = num) : ∀ k, m + k ≤ d →
    (∀ j < k, ∀ t, Spec.levelsRun P n (max 1 cfg.threshold) j s = .ok t →
      Spec.SeparatedAt P n t) →
    match Spec.levelsRun P n (max 1 cfg.threshold) k s with
    | .error e => foldE (levelStep c0 c1 bld cfg num) kcs (List.range' m k) = .error e
    | .ok s' => ∃ kcs', foldE (levelStep c0 c1 bld cfg num) kcs (List.range' m k) = .ok kcs' ∧
        RunAt n d (m + k) s' kcs' ∧ s'.r0.length = num
  | 0, _, _ => ⟨kcs, rfl, h, hnum⟩
  | k + 1, hk, hsep => by
    have ih := RunAt.levels_run h c0 c1 bld hn hm1 num hlog hnum k (by omega)
      fun j hj => hsep j (by omega)
    rw [Spec.levelsRun, List.range'_concat, foldE_append]
    cases hs : Spec.levelsRun P n (max 1 cfg.threshold) k s with
    | error e =>
      rw [hs] at ih
      dsimp only at ih ⊢
      rw [ih, error_bind]
      rfl
    | ok t =>
      rw [hs] at ih
      obtain ⟨kcs1, e1, h1, hl⟩ := ih
      rw [e1, ok_bind]
      have := h1.level_run (cfg := cfg) c0 c1 hn (by omega) (hl ▸ hlog) (hsep k (by omega) t hs)
      rw [hl] at this
      have hstep : foldE (levelStep c0 c1 bld cfg num) kcs1 [m + 1 * k] = runLevel c0 c1 cfg kcs1 num := by
        rw [foldE_cons]
        have : levelStep c0 c1 bld cfg num kcs1 (m + 1 * k) = runLevel c0 c1 cfg kcs1 num := by
          unfold levelStep
          rw [if_neg (by omega), ok_bind]
        rw [this]
        cases runLevel c0 c1 cfg kcs1 num <;> rfl
      rw [hstep]
      show match Spec.levelRun P n (max 1 cfg.threshold) t with
        | .error e => _
        | .ok s' => _
      cases hr : Spec.levelRun P n (max 1 cfg.threshold) t with
      | error e => rw [hr] at this; exact this
      | ok s' =>
        rw [hr] at this
        obtain ⟨kcs2, e2, h2⟩ := this
        exact ⟨kcs2, e2, by simpa [Nat.add_assoc] using h2, (levelRun_length hr).trans hl⟩

/-! ### The last level -/

theorem mapE_error_uniform {α : Type} {f : α → Exec Unit} {e : Panic} {l : List α}
    (h : ∀ a ∈ l, f a = .ok () ∨ f a = .error e) (hx : ∃ a ∈ l, f a = .error e) : mapE f l = .error e := by
  induction l with
  | nil => obtain ⟨a, ha, -⟩ := hx; cases ha
  | cons a l ih =>
    rw [mapE_cons]
    rcases h a (by simp) with h1 | h1
    · rw [h1, ok_bind]
      rw [ih (fun x hx => h x (by simp [hx])), error_bind]
      obtain ⟨x, hx, he⟩ := hx
      rcases List.mem_cons.1 hx with rfl | hx
      · rw [h1] at he; cases he
      · exact ⟨x, hx, he⟩
    · rw [h1, error_bind]

/-- A range within the proof lists is accepted iff they agree there; otherwise the assertion fails. -/
theorem compareProofs_within {c0 c1 : ServerCfg} {kcs : Pair2 P} {range : Nat × Nat}
    (hr : range.1 < range.2) (h0 : range.2 ≤ kcs.1.finalProofs.length)
    (h1 : range.2 ≤ kcs.2.finalProofs.length) :
    ((∀ j, range.1 ≤ j → j < range.2 → Spec.differAt kcs.1.finalProofs kcs.2.finalProofs j = false) →
      compareProofs c0 c1 kcs range = .ok ()) ∧
    ((∃ j, range.1 ≤ j ∧ j < range.2 ∧ Spec.differAt kcs.1.finalProofs kcs.2.finalProofs j = true) →
      compareProofs c0 c1 kcs range = .error .assertion) := by
  have hor : compareProofs c0 c1 kcs range = .ok () ∨ compareProofs c0 c1 kcs range = .error .assertion := by
    unfold compareProofs
    simp only [hr, decide_true, debugAssert_true, ok_bind]
    rw [show ((kcs.1.getProofs range.1 range.2).length == (kcs.2.getProofs range.1 range.2).length) = true from ?_]
    · rw [assertE_true, ok_bind]
      unfold assertE
      split
      · exact .inl rfl
      · exact .inr rfl
    · unfold KeyCollection.getProofs
      rw [if_pos ⟨hr, h0⟩, if_pos ⟨hr, h1⟩]
      simp only [List.length_take, List.length_drop, beq_iff_eq]
      omega
  constructor
  · intro hj
    unfold compareProofs
    simp only [hr, decide_true, debugAssert_true, ok_bind]
    have he : kcs.1.getProofs range.1 range.2 = kcs.2.getProofs range.1 range.2 := by
      unfold KeyCollection.getProofs
      rw [if_pos ⟨hr, h0⟩, if_pos ⟨hr, h1⟩]
      refine List.ext_getElem? fun i => ?_
      by_cases hi : i < range.2 - range.1
      · rw [List.getElem?_take_of_lt hi, List.getElem?_take_of_lt hi, List.getElem?_drop, List.getElem?_drop]
        have := hj (range.1 + i) (by omega) (by omega)
        simpa [Spec.differAt] using this
      · rw [List.getElem?_eq_none (by simp; omega), List.getElem?_eq_none (by simp; omega)]
    rw [he, beq_self_eq_true, assertE_true, ok_bind]
    rw [show ((kcs.2.getProofs range.1 range.2).zip (kcs.2.getProofs range.1 range.2)).all
      (fun hh => hh.1 == hh.2) = true from ?_]
    · rfl
    · rw [List.all_eq_true]
      intro x hx
      obtain ⟨i, hi, rfl⟩ := List.getElem_of_mem hx
      simp
  · rintro ⟨j, hj0, hj1, hd⟩
    refine hor.resolve_left fun hok => ?_
    have := compareProofs_ok hok h0 h1 hj0 hj1
    simp [Spec.differAt, this] at hd

theorem lastDisagree_lt {n : Nat} {s : Spec.RunState} {c : Nat}
    (h : Spec.lastDisagree P n s c = true) : c < s.r0.length := by
  by_contra hge
  simp [Spec.lastDisagree, List.getElem?_eq_none (Nat.le_of_not_lt hge)] at h

/-- The driver's last level is the specification's. -/
theorem RunAt.last_run {n d m : Nat} {s : Spec.RunState} {kcs : Pair2 P} {cfg : Config}
    (h : RunAt n d m s kcs) (c0 c1 : ServerCfg) (hn : cfg.histBuckets = n) (hn1 : 1 ≤ n) (hm : m < d)
    (hd : cfg.dataBits ≠ none) (hb : 1 ≤ cfg.queryBatch) :
    match Spec.lastRun P n (max 1 cfg.threshold) cfg.queryBatch s with
    | .error e => runLevelLast c0 c1 cfg kcs s.r0.length = .error e
    | .ok res => ∃ out, runLevelLast c0 c1 cfg kcs s.r0.length = .ok out ∧
        out.kcs.1.reportShares = s.r0 ∧ out.kcs.2.reportShares = s.r1 ∧
        out.results.map (fun r => (r.path, r.value)) = res ∧
        out.printed = out.results.filter fun r => decide (r.value.getD (n - 1) 0 ≠ 0) := by
  obtain ⟨r0, r1, paths⟩ := s
  obtain ⟨hL, rfl, rfl⟩ := h
  dsimp only at hL ⊢
  obtain ⟨hk0, hk1⟩ := LevelState.reach hL hm
  obtain ⟨k0, k1, rs, g0, g1, hrs, hok, herr⟩ := runLevelLast_at (LevelState.both hL) c0 c1 cfg
    kcs.1.reportShares.length hn hn1 hd hb hk0 hk1 hL.flags
  rw [included_filterMap] at g0 g1
  obtain ⟨rs', hrs', hrng, -⟩ := whileRanges_spec (n := kcs.1.reportShares.length) hb
    kcs.1.reportShares.length 0 (by omega)
  rw [hrs] at hrs'
  cases hrs'
  have hmem := whileRanges_mem hb kcs.1.reportShares.length 0 rs (by omega) hrs
  have hdif : ∀ j, Spec.differAt k0.finalProofs k1.finalProofs j = true ↔
      ∃ c, Spec.lastDisagree P n ⟨kcs.1.reportShares, kcs.2.reportShares, paths⟩ c = true ∧
        Spec.rank kcs.1.reportShares c = j := by
    intro j
    rw [g0, g1]
    exact differBy_iff hk0 hk1 hL.flags j
  have hlen : ∀ {r : List (Bool × ReportShare)}, KeysReach m r →
      (r.filterMap fun br => if br.1 then (Spec.keyOf br.2).map
        (fun key => Spec.proofsAt P n key paths) else none).length = r.countP Prod.fst := by
    intro r hr
    induction r with
    | nil => rfl
    | cons x r ih =>
      obtain ⟨b, x⟩ := x
      obtain ⟨key, hkey, -⟩ := hr (b, x) (by simp)
      have ih := ih fun y hy => hr y (by simp [hy])
      simp only at hkey
      cases b <;> simp [List.filterMap_cons, hkey, ih]
  have l0 : k0.finalProofs.length = kcs.1.reportShares.countP Prod.fst := by rw [g0, hlen hk0]
  have l1 : k1.finalProofs.length = kcs.1.reportShares.countP Prod.fst := by
    rw [g1, hlen hk1, ← included_count, ← included_count, included_length_congr hL.flags]
  have hc := List.countP_le_length (p := Prod.fst) (l := kcs.1.reportShares)
  unfold Spec.lastRun
  dsimp only
  by_cases hx : ((List.range kcs.1.reportShares.length).any fun c =>
      Spec.lastDisagree P n ⟨kcs.1.reportShares, kcs.2.reportShares, paths⟩ c &&
      Spec.batchCompared cfg.queryBatch kcs.1.reportShares.length (kcs.1.reportShares.countP Prod.fst)
        (Spec.rank kcs.1.reportShares c)) = true
  · rw [if_pos hx]
    refine herr _ (mapE_error_uniform (fun r hr => ?_) ?_)
    · by_cases hle : r.2 ≤ kcs.1.reportShares.countP Prod.fst
      · have := compareProofs_within (c0 := c0) (c1 := c1) (kcs := (k0, k1)) (hrng r hr).1
          (by rw [l0]; exact hle) (by rw [l1]; exact hle)
        by_cases hj : ∃ j, r.1 ≤ j ∧ j < r.2 ∧
            Spec.differAt k0.finalProofs k1.finalProofs j = true
        · exact .inr (this.2 hj)
        · push Not at hj
          exact .inl (this.1 fun j a b => by simpa using hj j a b)
      · exact .inl (compareProofs_short (hrng r hr).1 (by show k0.finalProofs.length < _; omega)
          (by show k1.finalProofs.length < _; omega))
    · obtain ⟨c, -, hcc⟩ := List.any_eq_true.1 hx
      rw [Bool.and_eq_true] at hcc
      obtain ⟨hc1, hc2⟩ := hcc
      have hdj := (hdif _).2 ⟨c, hc1, rfl⟩
      simp only [Spec.batchCompared, decide_eq_true_eq] at hc2
      have hjlt := differAt_lt (l0.trans l1.symm) hdj
      generalize Spec.rank kcs.1.reportShares c = j at *
      have hdm := Nat.div_add_mod j cfg.queryBatch
      have hmod := Nat.mod_lt j (show cfg.queryBatch > 0 by omega)
      rw [Nat.add_mul, Nat.one_mul] at hc2
      rw [Nat.mul_comm] at hdm
      have hin : (j / cfg.queryBatch * cfg.queryBatch, min kcs.1.reportShares.length
          (j / cfg.queryBatch * cfg.queryBatch + cfg.queryBatch)) ∈ rs :=
        (hmem _).2 ⟨j / cfg.queryBatch, by simp, by omega⟩
      refine ⟨_, hin, (compareProofs_within (c0 := c0) (c1 := c1) (kcs := (k0, k1)) (hrng _ hin).1
        (by rw [l0]; exact hc2) (by rw [l1]; exact hc2)).2 ⟨j, ?_, ?_, hdj⟩⟩
      · dsimp only; omega
      · dsimp only; omega
  · rw [if_neg hx]
    obtain ⟨out, e, e0, e1, e2, e3⟩ := hok (rs.map fun _ => ()) (mapE_ok_of_forall fun r hr => by
      by_cases hle : r.2 ≤ kcs.1.reportShares.countP Prod.fst
      · refine (compareProofs_within (c0 := c0) (c1 := c1) (kcs := (k0, k1)) (hrng r hr).1
          (by rw [l0]; exact hle) (by rw [l1]; exact hle)).1 fun j hj0 hj1 => ?_
        by_contra hj
        rw [Bool.not_eq_false] at hj
        obtain ⟨c, hc1, hc2⟩ := (hdif j).1 hj
        refine hx (List.any_eq_true.2 ⟨c, List.mem_range.2 (lastDisagree_lt hc1), ?_⟩)
        rw [Bool.and_eq_true, hc2]
        refine ⟨hc1, ?_⟩
        obtain ⟨k, rfl, hk⟩ := (hmem r).1 hr
        simp only [Spec.batchCompared, decide_eq_true_eq]
        dsimp only at hj0 hj1 hle
        simp only [Nat.zero_add] at hj0 hj1 hle hk
        have : j / cfg.queryBatch = k := by
          rw [Nat.div_eq_iff (by omega)]
          omega
        rw [this, Nat.add_mul, Nat.one_mul]
        exact hle
      · exact compareProofs_short (hrng r hr).1 (by show k0.finalProofs.length < _; omega)
          (by show k1.finalProofs.length < _; omega))
    refine ⟨out, e, e0, e1, ?_, e3⟩
    rw [e2, resultsOf, List.map_map]
    rfl

/-! ### Quiet states of the specification -/

theorem disagree_quiet {n d m : Nat} {r0 r1 : List (Bool × ReportShare)}
    (hq : Spec.AllPairs (Spec.QuietInner P n d) r0 r1) {paths : List (List Bool)} (hm : m + 1 < d)
    (hnd : paths.Nodup) (hl : ∀ p ∈ paths, p.length = m) (c : Nat) :
    Spec.disagree P n paths r0 r1 c = false := by
  unfold Spec.disagree
  split
  · rename_i a b h0 h1
    obtain ⟨k0, k1, e0, e1, q⟩ := hq.2 c a b h0 h1
    rw [e0, e1, Option.map_some, Option.map_some, q m paths hm hnd hl]
    simp
  · rfl

theorem lastDisagree_quiet {n d : Nat} {s : Spec.RunState} (hq : Spec.QuietReports P n d s.r0 s.r1)
    (hnd : s.paths.Nodup) (hl : ∀ p ∈ s.paths, p.length + 1 = d) (c : Nat) :
    Spec.lastDisagree P n s c = false := by
  unfold Spec.lastDisagree
  split
  · rename_i a b h0 h1
    obtain ⟨k0, k1, e0, e1, q⟩ := hq.2 c a b h0 h1
    rw [e0, e1, Option.map_some, Option.map_some, q.2 s.paths hnd hl]
    simp
  · rfl

theorem heavyChildren_heavyPaths (n T : Nat) (r0 r1 : List (Bool × ReportShare)) (m : Nat) :
    Spec.heavyChildren P n T r0 r1 (Spec.heavyPaths P n T (Spec.keyPairs r0 r1) m)
      = Spec.heavyPaths P n T (Spec.keyPairs r0 r1) (m + 1) := survivors_heavyPaths n T r0 r1 m

theorem levelsRun_quiet {n d T m : Nat} {r0 r1 : List (Bool × ReportShare)}
    (hq : Spec.AllPairs (Spec.QuietInner P n d) r0 r1) (ha : Spec.anyIncluded r0 = true) : ∀ k, m + k < d →
    (∀ l < k, Spec.heavyPaths P n T (Spec.keyPairs r0 r1) (m + l) ≠ []) →
    Spec.levelsRun P n T k ⟨r0, r1, Spec.heavyPaths P n T (Spec.keyPairs r0 r1) m⟩
      = .ok ⟨r0, r1, Spec.heavyPaths P n T (Spec.keyPairs r0 r1) (m + k)⟩
  | 0, _, _ => rfl
  | k + 1, hk, hh => by
    rw [Spec.levelsRun, levelsRun_quiet hq ha k (by omega) fun l hl => hh l (by omega)]
    show Spec.levelRun P n T _ = _
    unfold Spec.levelRun
    rw [if_neg (by simp [ha, hh k (by omega)]), if_pos]
    · rw [heavyChildren_heavyPaths]; rfl
    · rw [List.all_eq_true]
      intro c _
      dsimp only
      rw [disagree_quiet hq (by omega) (heavyPaths_nodup _ _ _ _) heavyPaths_len]
      rfl

theorem lastRun_quiet {n d T batch m : Nat} {r0 r1 : List (Bool × ReportShare)} (hm : m + 1 = d)
    (hq : Spec.QuietReports P n d r0 r1) :
    Spec.lastRun P n T batch ⟨r0, r1, Spec.heavyPaths P n T (Spec.keyPairs r0 r1) m⟩
      = .ok ((Spec.heavyPaths P n T (Spec.keyPairs r0 r1) d).map fun p =>
        (p, Spec.tally P n (Spec.keyPairs r0 r1) p)) := by
  unfold Spec.lastRun
  rw [if_neg]
  · rw [heavyChildren_heavyPaths, hm]
  · rw [Bool.not_eq_true, List.any_eq_false]
    intro c _
    rw [lastDisagree_quiet hq (heavyPaths_nodup _ _ _ _) (fun p hp => by rw [heavyPaths_len p hp]; exact hm)]
    simp

end Mastic
