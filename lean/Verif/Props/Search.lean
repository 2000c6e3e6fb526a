import Verif.Lemmas.Search
import Verif.Lemmas.Whh
import Verif.Lemmas.ToySearch
import Verif.Props.Final

/-!
# The cheater search of `run_level`: C30, C31, C32

`Spec.LevelState` says that both servers hold exact frontiers for the same prefixes, `Spec.disagree i` that
client `i` is included and its two check digests differ, `Spec.dropClients bad` marks the clients in `bad`
excluded and changes nothing else.  "No collision" (`Spec.Separated`) concerns the truncated BLAKE3 values
of the Merkle trees only.  `hlog` is the meaning of the floating-point `ceil_log2` for at most as many clients as there
are: `C108_small_partial` has it for the real function up to 2^20 clients, `C108_false` refutes it beyond.
-/

namespace Mastic

variable {P : Prims}

/-- The states after `tree_init` (and any exclusions, e.g. those of the FLP verification) are level states for the
empty prefix. -/
theorem C30_start {kcs kcs' : Pair2 P} {n d : Nat} {r0 r1 : List (Bool × ReportShare)}
    (h : driverTreeInit kcs = .ok kcs') (hn : kcs.1.inputLen = n ∧ kcs.2.inputLen = n)
    (hid : kcs.1.serverId = 0 ∧ kcs.2.serverId ≠ 0) (hd : kcs.1.depth = some d ∧ kcs.2.depth = some d)
    (h0 : r0.map Prod.snd = kcs.1.reportShares.map Prod.snd)
    (h1 : r1.map Prod.snd = kcs.2.reportShares.map Prod.snd)
    (hf : r0.map Prod.fst = r1.map Prod.fst)
    (hk : ∀ r ∈ r0 ++ r1, ∃ key, Spec.keyOf r.2 = some key ∧
      key.cs.length = key.corWords.length ∧ d ≤ key.corWords.length) :
    Spec.LevelState P n d 0 [[]] ({ kcs'.1 with reportShares := r0 }, { kcs'.2 with reportShares := r1 }) := by
  obtain ⟨t0, t1⟩ := driverTreeInit_ok h
  obtain ⟨root0, f0, e0⟩ := treeInit_fresh t0
  obtain ⟨root1, f1, e1⟩ := treeInit_fresh t1
  have a0 := f0.at (n := n) (d := d) (first := true) (reports := r0) (by rw [e0]; exact hn.1)
    (by rw [e0]; simp [hid.1]) (by rw [e0]; exact hd.1) (by rw [e0]; exact h0)
  have a1 := f1.at (n := n) (d := d) (first := false) (reports := r1) (by rw [e1]; exact hn.2)
    (by rw [e1]; simp [hid.2]) (by rw [e1]; exact hd.2) (by rw [e1]; exact h1)
  exact LevelState.of_both (P := P)
    (kcs := ({ kcs'.1 with reportShares := r0 }, { kcs'.2 with reportShares := r1 })) ⟨a0, a1⟩ hf hk

/-- **C30.** All clients are included, the digests of some of them differ and those of at least one agree:
`run_level` completes with exactly the differing clients excluded, on both servers, and the surviving
prefixes are the children whose count over the remaining clients reaches the threshold. -/
theorem C30_located {n d m : Nat} {paths : List (List Bool)} {kcs : Pair2 P} {cfg : Config}
    (h : Spec.LevelState P n d m paths kcs) (c0 c1 : ServerCfg) (hn : cfg.histBuckets = n)
    (hne : paths ≠ []) (hm : m < d)
    (hlog : ∀ x ≤ kcs.1.reportShares.length, P.ceilLog2 x = Nat.clog 2 x)
    (hall : ∀ r ∈ kcs.1.reportShares, r.1 = true)
    (hsep : Spec.Separated P (Spec.digests P n true paths kcs.1.reportShares)
      (Spec.digests P n false paths kcs.2.reportShares))
    (hdis : ∃ c, Spec.disagree P n paths kcs.1.reportShares kcs.2.reportShares c = true)
    (hgood : ∃ c < kcs.1.reportShares.length,
      Spec.disagree P n paths kcs.1.reportShares kcs.2.reportShares c = false) :
    ∃ kcs', runLevel c0 c1 cfg kcs kcs.1.reportShares.length = .ok kcs' ∧
      kcs'.1.reportShares = Spec.dropClients
        (Spec.disagree P n paths kcs.1.reportShares kcs.2.reportShares) kcs.1.reportShares ∧
      kcs'.2.reportShares = Spec.dropClients
        (Spec.disagree P n paths kcs.1.reportShares kcs.2.reportShares) kcs.2.reportShares ∧
      Spec.LevelState P n d (m + 1) (Spec.heavyChildren P n (max 1 cfg.threshold)
        kcs'.1.reportShares kcs'.2.reportShares paths) kcs' := by
  have hlen : (Spec.included kcs.1.reportShares).length = kcs.1.reportShares.length := by
    rw [included_count, List.countP_eq_length]
    exact hall
  obtain ⟨-, -, h3⟩ := runLevel_differ h c0 c1 hn hne hm rfl rfl (hlog _ (included_le _)) hsep hdis
    (bad := Spec.disagree P n paths kcs.1.reportShares kcs.2.reportShares) (by
      have hlt : ∀ c, Spec.disagree P n paths kcs.1.reportShares kcs.2.reportShares c = true →
          c < kcs.1.reportShares.length := by
        intro c hc
        by_contra hge
        simp [Spec.disagree, List.getElem?_eq_none (Nat.le_of_not_lt hge)] at hc
      intro j
      constructor
      · exact fun hj => ⟨j, hj, rank_all hall (hlt j hj).le⟩
      · rintro ⟨c, hc, hr⟩
        rw [rank_all hall (hlt c hc).le] at hr
        rw [← hr]; exact hc)
  obtain ⟨kcs', e, e0, e1, hL⟩ := h3 (by rw [hlen]; exact Nat.le_pow_clog (by omega) _) (by
    obtain ⟨c, hc, hd⟩ := hgood
    refine ⟨_, List.mem_of_getElem? (i := c) (by
      rw [Spec.dropClients, List.getElem?_mapIdx, List.getElem?_eq_getElem hc]; rfl), ?_⟩
    simp [hd, hall _ (List.getElem_mem hc)])
  refine ⟨kcs', e, e0, e1, ?_⟩
  rw [e0, e1]
  exact hL

/-- **C30.** When no digests differ nobody is excluded, whatever was excluded before (at least one client still
being included). -/
theorem C30_quiet {n d m : Nat} {paths : List (List Bool)} {kcs : Pair2 P} {cfg : Config}
    (h : Spec.LevelState P n d m paths kcs) (c0 c1 : ServerCfg) (num : Nat) (hn : cfg.histBuckets = n)
    (hne : paths ≠ []) (hm : m < d) (hi : ∃ r ∈ kcs.1.reportShares, r.1 = true)
    (hdis : ∀ c, Spec.disagree P n paths kcs.1.reportShares kcs.2.reportShares c = false) :
    ∃ kcs', runLevel c0 c1 cfg kcs num = .ok kcs' ∧
      kcs'.1.reportShares = kcs.1.reportShares ∧ kcs'.2.reportShares = kcs.2.reportShares ∧
      Spec.LevelState P n d (m + 1) (Spec.heavyChildren P n (max 1 cfg.threshold)
        kcs.1.reportShares kcs.2.reportShares paths) kcs' := by
  obtain ⟨hk0, hk1⟩ := LevelState.reach h hm
  obtain ⟨kcs', e, hB⟩ := runLevel_quiet (LevelState.both h) c0 c1 cfg num hn hne hm hk0 hk1 h.flags (by
      rw [← List.length_pos_iff, included_count, List.countP_pos_iff]
      exact hi) (by
    by_contra hd
    obtain ⟨p, hp⟩ := exists_differ hd
    obtain ⟨c, hc, -⟩ := (differAt_iff hk0 hk1 h.flags p).1 hp
    rw [hdis c] at hc
    cases hc)
  exact ⟨kcs', e, hB.fst.rep, hB.snd.rep, LevelState.of_both hB h.flags h.keys⟩

/-- Level states for the examples below, by `C30_start`. -/
theorem mix_states {flags : List Bool} {cheat : List Nat}
    (h : twoLevels (mixR flags cheat false ++ mixR flags cheat true) = true)
    (hf : (mixR flags cheat false).map Prod.fst = (mixR flags cheat true).map Prod.fst) :
    ∃ kcs, MixStates flags cheat kcs := by
  have hk := twoLevels_iff h
  obtain ⟨k0, e0⟩ := treeInit_progress (kc := { KeyCollection.new mixToy 2 0 (some 2) Block.zero with
    reportShares := mixR flags cheat false }) (fun br hbr => by
      obtain ⟨key, a, b, c⟩ := hk br (List.mem_append_left _ hbr)
      exact ⟨key, a, b, by omega⟩)
  obtain ⟨k1, e1⟩ := treeInit_progress (kc := { KeyCollection.new mixToy 2 1 (some 2) Block.zero with
    reportShares := mixR flags cheat true }) (fun br hbr => by
      obtain ⟨key, a, b, c⟩ := hk br (List.mem_append_right _ hbr)
      exact ⟨key, a, b, by omega⟩)
  exact ⟨_, rfl, rfl, C30_start (kcs := ({ KeyCollection.new mixToy 2 0 (some 2) Block.zero with
    reportShares := mixR flags cheat false }, { KeyCollection.new mixToy 2 1 (some 2) Block.zero with
    reportShares := mixR flags cheat true })) (kcs' := (k0, k1))
    (by unfold driverTreeInit; rw [e0, ok_bind, e1, ok_bind]) ⟨rfl, rfl⟩ ⟨rfl, by show (1 : Int) ≠ 0; decide⟩ ⟨rfl, rfl⟩
    rfl rfl hf hk⟩

/-- Four included clients, the second and the fourth with an altered correction seed on one server: the
hypotheses of `C30_located` are met, and exactly these two clients are excluded. -/
example : ∃ kcs kcs' : Pair2 mixToy, Spec.LevelState mixToy 2 2 0 [[]] kcs ∧
    runLevel (toyCfg 0 (some 2) .debug) (toyCfg 1 (some 2) .debug) ⟨some 2, 2, 1, 2, 1, 2⟩ kcs
      kcs.1.reportShares.length = .ok kcs' ∧
    kcs'.1.reportShares.map Prod.fst = [true, false, true, false] ∧
    kcs'.1.frontier.map TreeNode.path = [[true]] := by
  obtain ⟨kcs, e0, e1, hL⟩ := mix_states (flags := [true, true, true, true]) (cheat := [1, 3])
    (by decide +kernel) (by decide +kernel)
  have hlen : (mixR [true, true, true, true] [1, 3] false).length = 4 := by decide +kernel
  obtain ⟨kcs', e, r0, r1, hL'⟩ := C30_located hL (toyCfg 0 (some 2) .debug) (toyCfg 1 (some 2) .debug)
    (cfg := ⟨some 2, 2, 1, 2, 1, 2⟩) rfl (by decide) (by omega) (fun x _ => toy_clog x)
    (by rw [e0]; decide +kernel) (by rw [e0, e1]; exact separated_of (by decide +kernel))
    ⟨1, by rw [e0, e1]; decide +kernel⟩ ⟨0, by rw [e0, hlen]; omega, by rw [e0, e1]; decide +kernel⟩
  refine ⟨kcs, kcs', hL, e, ?_, ?_⟩
  · rw [r0, e0, e1]; decide +kernel
  · rw [hL'.same.1, r0, r1, e0, e1]; decide +kernel

/-- The hypotheses of `C30_quiet`: four honest clients, of whom the second was excluded before. -/
example : ∃ kcs kcs' : Pair2 mixToy, Spec.LevelState mixToy 2 2 0 [[]] kcs ∧
    runLevel (toyCfg 0 (some 2) .debug) (toyCfg 1 (some 2) .debug) ⟨some 2, 2, 1, 2, 1, 2⟩ kcs 4 = .ok kcs' ∧
    kcs'.1.reportShares.map Prod.fst = [true, false, true, true] := by
  obtain ⟨kcs, e0, e1, hL⟩ := mix_states (flags := [true, false, true, true]) (cheat := [])
    (by decide +kernel) (by decide +kernel)
  have hlen : (mixR [true, false, true, true] [] false).length = 4 := by decide +kernel
  obtain ⟨kcs', e, r0, -⟩ := C30_quiet hL (toyCfg 0 (some 2) .debug) (toyCfg 1 (some 2) .debug) 4
    (cfg := ⟨some 2, 2, 1, 2, 1, 2⟩) rfl (by decide) (by omega)
    (by rw [e0]; decide +kernel) (by
      intro i
      rw [e0, e1]
      by_cases hi : i < 4
      · revert i
        decide +kernel
      · have : (mixR [true, false, true, true] [] false)[i]? = none := List.getElem?_eq_none (by omega)
        unfold Spec.disagree
        rw [this])
  exact ⟨kcs, kcs', hL, e, by rw [r0, e0]; decide +kernel⟩

/-! ### C31 -/

/-- **C31, what the code does.** With any clients excluded before: if the tree over the included clients is as
large as the one over all clients and somebody stays included, `run_level` completes and excludes the clients
whose *index* is the *position among the included clients* of a differing client. -/
theorem C31_positions {n d m : Nat} {paths : List (List Bool)} {kcs : Pair2 P} {cfg : Config}
    (h : Spec.LevelState P n d m paths kcs) (c0 c1 : ServerCfg) (hn : cfg.histBuckets = n)
    (hne : paths ≠ []) (hm : m < d)
    (hlog : ∀ x ≤ kcs.1.reportShares.length, P.ceilLog2 x = Nat.clog 2 x)
    (hsize : kcs.1.reportShares.length ≤ 2 ^ Nat.clog 2 (kcs.1.reportShares.countP Prod.fst))
    (hsep : Spec.Separated P (Spec.digests P n true paths kcs.1.reportShares)
      (Spec.digests P n false paths kcs.2.reportShares))
    (hdis : ∃ c, Spec.disagree P n paths kcs.1.reportShares kcs.2.reportShares c = true)
    (bad : Nat → Bool)
    (hbad : ∀ j, bad j = true ↔
      ∃ c, Spec.disagree P n paths kcs.1.reportShares kcs.2.reportShares c = true ∧
        Spec.rank kcs.1.reportShares c = j)
    (hstay : ∃ (i : Nat) (r : ReportShare), kcs.1.reportShares[i]? = some (true, r) ∧ bad i = false) :
    ∃ kcs', runLevel c0 c1 cfg kcs kcs.1.reportShares.length = .ok kcs' ∧
      kcs'.1.reportShares = Spec.dropClients bad kcs.1.reportShares ∧
      kcs'.2.reportShares = Spec.dropClients bad kcs.2.reportShares ∧
      Spec.LevelState P n d (m + 1) (Spec.heavyChildren P n (max 1 cfg.threshold)
        kcs'.1.reportShares kcs'.2.reportShares paths) kcs' := by
  obtain ⟨-, -, h3⟩ := runLevel_differ h c0 c1 hn hne hm rfl rfl (hlog _ (included_le _)) hsep hdis hbad
  obtain ⟨kcs', e, e0, e1, hL⟩ := h3 (by rw [included_count]; exact hsize) (by
    obtain ⟨i, r, hi, hb⟩ := hstay
    refine ⟨_, List.mem_of_getElem? (i := i) (by
      rw [Spec.dropClients, List.getElem?_mapIdx, hi]; rfl), ?_⟩
    simp [hb])
  refine ⟨kcs', e, e0, e1, ?_⟩
  rw [e0, e1]
  exact hL

/-- **C31 (partial).** The search is right as long as no client before a differing one was excluded.
Missing: exclusions before a differing client, where it is wrong (`C31_false`). -/
theorem C31_located_partial {n d m : Nat} {paths : List (List Bool)} {kcs : Pair2 P} {cfg : Config}
    (h : Spec.LevelState P n d m paths kcs) (c0 c1 : ServerCfg) (hn : cfg.histBuckets = n)
    (hne : paths ≠ []) (hm : m < d)
    (hlog : ∀ x ≤ kcs.1.reportShares.length, P.ceilLog2 x = Nat.clog 2 x)
    (hsize : kcs.1.reportShares.length ≤ 2 ^ Nat.clog 2 (kcs.1.reportShares.countP Prod.fst))
    (hsep : Spec.Separated P (Spec.digests P n true paths kcs.1.reportShares)
      (Spec.digests P n false paths kcs.2.reportShares))
    (hdis : ∃ c, Spec.disagree P n paths kcs.1.reportShares kcs.2.reportShares c = true)
    (hbefore : ∀ c, Spec.disagree P n paths kcs.1.reportShares kcs.2.reportShares c = true →
      ∀ i < c, ∃ r, kcs.1.reportShares[i]? = some (true, r))
    (hstay : ∃ (i : Nat) (r : ReportShare), kcs.1.reportShares[i]? = some (true, r) ∧
      Spec.disagree P n paths kcs.1.reportShares kcs.2.reportShares i = false) :
    ∃ kcs', runLevel c0 c1 cfg kcs kcs.1.reportShares.length = .ok kcs' ∧
      kcs'.1.reportShares = Spec.dropClients
        (Spec.disagree P n paths kcs.1.reportShares kcs.2.reportShares) kcs.1.reportShares ∧
      kcs'.2.reportShares = Spec.dropClients
        (Spec.disagree P n paths kcs.1.reportShares kcs.2.reportShares) kcs.2.reportShares ∧
      Spec.LevelState P n d (m + 1) (Spec.heavyChildren P n (max 1 cfg.threshold)
        kcs'.1.reportShares kcs'.2.reportShares paths) kcs' := by
  refine C31_positions h c0 c1 hn hne hm hlog hsize hsep hdis _ (fun j => ?_) hstay
  have hrank : ∀ c, Spec.disagree P n paths kcs.1.reportShares kcs.2.reportShares c = true →
      Spec.rank kcs.1.reportShares c = c := by
    intro c hc
    have hlt : c < kcs.1.reportShares.length := by
      by_contra hge
      simp [Spec.disagree, List.getElem?_eq_none (Nat.le_of_not_lt hge)] at hc
    have hlen : (kcs.1.reportShares.take c).length = c := by rw [List.length_take]; omega
    rw [Spec.rank, List.countP_eq_length.2, hlen]
    intro x hx
    obtain ⟨i, hi⟩ := List.getElem?_of_mem hx
    have hic : i < c := by
      have := (List.getElem?_eq_some_iff.1 hi).1
      omega
    obtain ⟨r, hr⟩ := hbefore c hc i hic
    rw [List.getElem?_take, if_pos hic, hr] at hi
    cases hi
    rfl
  constructor
  · exact fun hj => ⟨j, hj, hrank j hj⟩
  · rintro ⟨c, hc, hr⟩
    rw [hrank c hc] at hr
    rw [← hr]; exact hc

/-- **C31 is false of the code.** Exactly one included client `c` cheats and some client before it was
excluded earlier.  `run_level` completes, the cheater is still included on both servers, and another
client — the one whose index is the number of included clients before `c` — is excluded instead. -/
theorem C31_false {n d m : Nat} {paths : List (List Bool)} {kcs : Pair2 P} {cfg : Config}
    (h : Spec.LevelState P n d m paths kcs) (c0 c1 : ServerCfg) (hn : cfg.histBuckets = n)
    (hne : paths ≠ []) (hm : m < d)
    (hlog : ∀ x ≤ kcs.1.reportShares.length, P.ceilLog2 x = Nat.clog 2 x)
    (hsize : kcs.1.reportShares.length ≤ 2 ^ Nat.clog 2 (kcs.1.reportShares.countP Prod.fst))
    (hsep : Spec.Separated P (Spec.digests P n true paths kcs.1.reportShares)
      (Spec.digests P n false paths kcs.2.reportShares))
    (c : Nat)
    (hdis : ∀ i, Spec.disagree P n paths kcs.1.reportShares kcs.2.reportShares i = decide (i = c))
    (hex : ∃ e < c, ∃ r, kcs.1.reportShares[e]? = some (false, r)) :
    ∃ kcs', runLevel c0 c1 cfg kcs kcs.1.reportShares.length = .ok kcs' ∧
      (∃ r, kcs.1.reportShares[c]? = some (true, r) ∧ kcs'.1.reportShares[c]? = some (true, r)) ∧
      (∃ r, kcs.2.reportShares[c]? = some (true, r) ∧ kcs'.2.reportShares[c]? = some (true, r)) ∧
      Spec.rank kcs.1.reportShares c ≠ c ∧
      (∃ r, kcs'.1.reportShares[Spec.rank kcs.1.reportShares c]? = some (false, r)) ∧
      (∃ r, kcs'.2.reportShares[Spec.rank kcs.1.reportShares c]? = some (false, r)) := by
  have hc := hdis c
  rw [decide_eq_true rfl] at hc
  have hcc : ∃ a b, kcs.1.reportShares[c]? = some (true, a) ∧ kcs.2.reportShares[c]? = some (true, b) := by
    unfold Spec.disagree at hc
    split at hc
    · rename_i a b h0 h1
      exact ⟨a, b, h0, h1⟩
    · cases hc
  obtain ⟨a, b, h0, h1⟩ := hcc
  have hlt0 := (List.getElem?_eq_some_iff.1 h0).1
  have hlt1 := (List.getElem?_eq_some_iff.1 h1).1
  obtain ⟨e, hec, r, he⟩ := hex
  have hrank := rank_lt hec hlt0.le he
  obtain ⟨kcs', hrun, e0, e1, -⟩ := C31_positions h c0 c1 hn hne hm hlog hsize hsep ⟨c, hc⟩
    (fun j => decide (Spec.rank kcs.1.reportShares c = j)) (by
      intro j
      rw [decide_eq_true_iff]
      constructor
      · exact fun hj => ⟨c, hc, hj⟩
      · rintro ⟨i, hi, hr⟩
        rw [hdis i, decide_eq_true_iff] at hi
        rw [← hi]; exact hr)
    ⟨c, a, h0, decide_eq_false (by omega)⟩
  refine ⟨kcs', hrun, ⟨a, h0, ?_⟩, ⟨b, h1, ?_⟩, by omega, ?_, ?_⟩
  · rw [e0, Spec.dropClients, List.getElem?_mapIdx, h0]
    simp [hrank.ne]
  · rw [e1, Spec.dropClients, List.getElem?_mapIdx, h1]
    simp [hrank.ne]
  · rw [e0, Spec.dropClients, List.getElem?_mapIdx,
      List.getElem?_eq_getElem (show Spec.rank kcs.1.reportShares c < kcs.1.reportShares.length by omega)]
    simp
  · rw [e1, Spec.dropClients, List.getElem?_mapIdx,
      List.getElem?_eq_getElem (show Spec.rank kcs.1.reportShares c < kcs.2.reportShares.length by omega)]
    simp

theorem flag_get {l : List (Bool × ReportShare)} {i : Nat} {b : Bool} (h : (l.map Prod.fst)[i]? = some b) :
    ∃ r, l[i]? = some (b, r) := by
  rw [List.getElem?_map, Option.map_eq_some_iff] at h
  obtain ⟨⟨c, r⟩, hr, rfl⟩ := h
  exact ⟨r, hr⟩

/-- States meeting the hypotheses of `C31_false`: four clients; the first was excluded before and the third
cheats. -/
theorem mix31 : ∃ kcs : Pair2 mixToy, Spec.LevelState mixToy 2 2 0 [[]] kcs ∧
    kcs.1.reportShares.map Prod.fst = [false, true, true, true] ∧
    (∀ i, Spec.disagree mixToy 2 [[]] kcs.1.reportShares kcs.2.reportShares i = decide (i = 2)) ∧
    kcs.1.reportShares.length ≤ 2 ^ Nat.clog 2 (kcs.1.reportShares.countP Prod.fst) ∧
    Spec.Separated mixToy (Spec.digests mixToy 2 true [[]] kcs.1.reportShares)
      (Spec.digests mixToy 2 false [[]] kcs.2.reportShares) := by
  obtain ⟨kcs, e0, e1, hL⟩ := mix_states (flags := [false, true, true, true]) (cheat := [2])
    (by decide +kernel) (by decide +kernel)
  have hlen : (mixR [false, true, true, true] [2] false).length = 4 := by decide +kernel
  refine ⟨kcs, hL, by rw [e0]; decide +kernel, ?_, by rw [e0]; decide +kernel,
    by rw [e0, e1]; exact separated_of (by decide +kernel)⟩
  intro i
  rw [e0, e1]
  by_cases hi : i < 4
  · revert i
    decide +kernel
  · have : (mixR [false, true, true, true] [2] false)[i]? = none :=
      List.getElem?_eq_none (by omega)
    unfold Spec.disagree
    rw [this, decide_eq_false (by omega)]

/-- For these states the honest second client is excluded and the cheater stays. -/
example : ∃ kcs kcs' : Pair2 mixToy, Spec.LevelState mixToy 2 2 0 [[]] kcs ∧
    runLevel (toyCfg 0 (some 2) .debug) (toyCfg 1 (some 2) .debug) ⟨some 2, 2, 1, 2, 1, 2⟩ kcs
      kcs.1.reportShares.length = .ok kcs' ∧
    (∀ i, Spec.disagree mixToy 2 [[]] kcs.1.reportShares kcs.2.reportShares i = decide (i = 2)) ∧
    (∃ r, kcs'.1.reportShares[2]? = some (true, r)) ∧
    (∃ r, kcs.1.reportShares[1]? = some (true, r)) ∧ ∃ r, kcs'.1.reportShares[1]? = some (false, r) := by
  obtain ⟨kcs, hL, hfl, hdis, hsize, hsep⟩ := mix31
  obtain ⟨kcs', e, ⟨a, -, ha⟩, -, -, hb, -⟩ := C31_false hL (toyCfg 0 (some 2) .debug)
    (toyCfg 1 (some 2) .debug) (cfg := ⟨some 2, 2, 1, 2, 1, 2⟩) rfl (by decide) (by omega) (fun x _ => toy_clog x) hsize hsep
    2 hdis ⟨0, by omega, flag_get (by rw [hfl]; rfl)⟩
  have hr : Spec.rank kcs.1.reportShares 2 = 1 := by
    have : Spec.rank kcs.1.reportShares 2 = ((kcs.1.reportShares.map Prod.fst).take 2).countP id := by
      rw [Spec.rank, ← List.map_take, List.countP_map]
      rfl
    rw [this, hfl]
    rfl
  rw [hr] at hb
  exact ⟨kcs, kcs', hL, e, hdis, ⟨a, ha⟩, flag_get (by rw [hfl]; rfl), hb⟩

/-- The hypotheses of `C31_positions` and `C31_located_partial`: four clients, of whom the last was excluded before and
the second cheats; the second is excluded. -/
example : ∃ kcs kcs' : Pair2 mixToy, Spec.LevelState mixToy 2 2 0 [[]] kcs ∧
    kcs.1.reportShares.map Prod.fst = [true, true, true, false] ∧
    runLevel (toyCfg 0 (some 2) .debug) (toyCfg 1 (some 2) .debug) ⟨some 2, 2, 1, 2, 1, 2⟩ kcs
      kcs.1.reportShares.length = .ok kcs' ∧
    kcs'.1.reportShares.map Prod.fst = [true, false, true, false] := by
  obtain ⟨kcs, e0, e1, hL⟩ := mix_states (flags := [true, true, true, false]) (cheat := [1])
    (by decide +kernel) (by decide +kernel)
  have hlen : (mixR [true, true, true, false] [1] false).length = 4 := by decide +kernel
  have hfl : kcs.1.reportShares.map Prod.fst = [true, true, true, false] := by rw [e0]; decide +kernel
  have hdis : ∀ i, Spec.disagree mixToy 2 [[]] kcs.1.reportShares kcs.2.reportShares i = decide (i = 1) := by
    intro i
    rw [e0, e1]
    by_cases hi : i < 4
    · revert i
      decide +kernel
    · have : (mixR [true, true, true, false] [1] false)[i]? = none := List.getElem?_eq_none (by omega)
      unfold Spec.disagree
      rw [this, decide_eq_false (by omega)]
  obtain ⟨kcs', e, r0, -⟩ := C31_located_partial hL (toyCfg 0 (some 2) .debug) (toyCfg 1 (some 2) .debug)
    (cfg := ⟨some 2, 2, 1, 2, 1, 2⟩) rfl (by decide) (by omega) (fun x _ => toy_clog x)
    (by rw [e0]; decide +kernel) (by rw [e0, e1]; exact separated_of (by decide +kernel))
    ⟨1, by rw [hdis]; rfl⟩ (by
      intro c hc i hi
      rw [hdis, decide_eq_true_iff] at hc
      obtain rfl : i = 0 := by omega
      exact flag_get (by rw [hfl]; rfl))
    (by
      obtain ⟨r, hr⟩ := flag_get (l := kcs.1.reportShares) (i := 0) (b := true) (by rw [hfl]; rfl)
      exact ⟨0, r, hr, by rw [hdis]; rfl⟩)
  refine ⟨kcs, kcs', hL, hfl, e, ?_⟩
  rw [r0, e0, e1]; decide +kernel

/-! ### C32 -/

/-- **C32 is false of the code (1).** As soon as the tree over the included clients has fewer leaves than there
are clients and the digests of some included client differ, a server panics in `chunks(0)`. -/
theorem C32_false_split {n d m : Nat} {paths : List (List Bool)} {kcs : Pair2 P} {cfg : Config}
    (h : Spec.LevelState P n d m paths kcs) (c0 c1 : ServerCfg) (hn : cfg.histBuckets = n)
    (hne : paths ≠ []) (hm : m < d)
    (hlog : ∀ x ≤ kcs.1.reportShares.length, P.ceilLog2 x = Nat.clog 2 x)
    (hsize : 2 ^ Nat.clog 2 (kcs.1.reportShares.countP Prod.fst) < kcs.1.reportShares.length)
    (hsep : Spec.Separated P (Spec.digests P n true paths kcs.1.reportShares)
      (Spec.digests P n false paths kcs.2.reportShares))
    (hdis : ∃ c, Spec.disagree P n paths kcs.1.reportShares kcs.2.reportShares c = true) :
    runLevel c0 c1 cfg kcs kcs.1.reportShares.length = .error .zeroChunk := by
  classical
  exact (runLevel_differ h c0 c1 hn hne hm rfl rfl (hlog _ (included_le _)) hsep hdis
    (bad := fun j => decide (∃ c, Spec.disagree P n paths kcs.1.reportShares kcs.2.reportShares c = true ∧
        Spec.rank kcs.1.reportShares c = j)) (fun j => decide_eq_true_iff)).1
    (by rw [included_count]; exact hsize)

/-- **C32 is false of the code (2).** With no included client left, every level panics on `chunks_list[0]`. -/
theorem C32_false_nobody {n d m : Nat} {paths : List (List Bool)} {kcs : Pair2 P} {cfg : Config}
    (h : Spec.LevelState P n d m paths kcs) (c0 c1 : ServerCfg) (num : Nat)
    (hne : paths ≠ []) (hm : m < d) (hnobody : ∀ r ∈ kcs.1.reportShares, r.1 = false) :
    runLevel c0 c1 cfg kcs num = .error .index := by
  obtain ⟨hk0, -⟩ := LevelState.reach h hm
  have hB := LevelState.both h
  have hd : Spec.digests P n true paths kcs.1.reportShares = [] := by
    rw [← List.length_eq_zero_iff, digests_length hk0, included_count, List.countP_eq_zero]
    intro r hr
    simp [hnobody r hr]
  have herr : crawlBoth c0 c1 kcs ⟨1, [], false⟩ = .error .index :=
    crawlBoth_error (ks := kcs) (req := ⟨1, [], false⟩) rfl hB c0 c1 hne hm hk0 (by
      rw [hd]
      exact merkleRoots_first_empty)
  unfold runLevel searchLevel
  rw [show num + 3 = (num + 2) + 1 from rfl, runLevelLoop, herr, error_bind, error_bind]

/-- **C32 (partial), exactly when the search panics.** (Missing: `C32_false_split`,
`C32_false_nobody`.)  When the digests of some included client differ, `run_level` completes if and only if the tree over the included clients is as large as the one over all clients and
somebody stays included after the (wrongly indexed, see C31) exclusion. -/
theorem C32_completes_partial {n d m : Nat} {paths : List (List Bool)} {kcs : Pair2 P} {cfg : Config}
    (h : Spec.LevelState P n d m paths kcs) (c0 c1 : ServerCfg) (hn : cfg.histBuckets = n)
    (hne : paths ≠ []) (hm : m < d)
    (hlog : ∀ x ≤ kcs.1.reportShares.length, P.ceilLog2 x = Nat.clog 2 x)
    (hsep : Spec.Separated P (Spec.digests P n true paths kcs.1.reportShares)
      (Spec.digests P n false paths kcs.2.reportShares))
    (hdis : ∃ c, Spec.disagree P n paths kcs.1.reportShares kcs.2.reportShares c = true) :
    Returns (runLevel c0 c1 cfg kcs kcs.1.reportShares.length) ↔
      kcs.1.reportShares.length ≤ 2 ^ Nat.clog 2 (kcs.1.reportShares.countP Prod.fst) ∧
      ∃ (i : Nat) (r : ReportShare), kcs.1.reportShares[i]? = some (true, r) ∧
        ∀ c, Spec.disagree P n paths kcs.1.reportShares kcs.2.reportShares c = true →
          Spec.rank kcs.1.reportShares c ≠ i := by
  classical
  obtain ⟨h1, h2, h3⟩ := runLevel_differ h c0 c1 hn hne hm rfl rfl (hlog _ (included_le _)) hsep hdis
    (bad := fun j => decide (∃ c, Spec.disagree P n paths kcs.1.reportShares kcs.2.reportShares c = true ∧
        Spec.rank kcs.1.reportShares c = j)) (fun j => decide_eq_true_iff)
  rw [included_count] at h1 h2 h3
  have hstay : (∃ r ∈ Spec.dropClients (fun j => decide (∃ c,
        Spec.disagree P n paths kcs.1.reportShares kcs.2.reportShares c = true ∧
        Spec.rank kcs.1.reportShares c = j)) kcs.1.reportShares, r.1 = true) ↔
      ∃ (i : Nat) (r : ReportShare), kcs.1.reportShares[i]? = some (true, r) ∧
        ∀ c, Spec.disagree P n paths kcs.1.reportShares kcs.2.reportShares c = true →
          Spec.rank kcs.1.reportShares c ≠ i := by
    constructor
    · rintro ⟨r, hr, ht⟩
      obtain ⟨i, hi⟩ := List.getElem?_of_mem hr
      rw [Spec.dropClients, List.getElem?_mapIdx, Option.map_eq_some_iff] at hi
      obtain ⟨⟨b, x⟩, hx, rfl⟩ := hi
      simp only [Bool.and_eq_true, Bool.not_eq_true', decide_eq_false_iff_not] at ht
      obtain ⟨rfl, hn⟩ := ht
      exact ⟨i, x, hx, fun c hc hr => hn ⟨c, hc, hr⟩⟩
    · rintro ⟨i, r, hi, hn⟩
      refine ⟨(true, r), List.mem_of_getElem? (i := i) ?_, rfl⟩
      rw [Spec.dropClients, List.getElem?_mapIdx, hi]
      simp only [Option.map_some, Bool.true_and, Option.some.injEq, Prod.mk.injEq, and_true,
        Bool.not_eq_true', decide_eq_false_iff_not]
      rintro ⟨c, hc, hr⟩
      exact hn c hc hr
  constructor
  · rintro ⟨k, hk⟩
    have hle : kcs.1.reportShares.length ≤ 2 ^ Nat.clog 2 (kcs.1.reportShares.countP Prod.fst) := by
      by_contra hlt
      rw [h1 (by omega)] at hk
      cases hk
    refine ⟨hle, hstay.1 ?_⟩
    by_contra hno
    push Not at hno
    rw [h2 hle (fun r hr => by simpa using hno r hr)] at hk
    cases hk
  · rintro ⟨hle, hs⟩
    obtain ⟨k, hk, -⟩ := h3 hle (hstay.2 hs)
    exact ⟨k, hk⟩

/-- Three clients, the first excluded before, the second cheating: two included clients give a tree with two
leaves, the driver splits in four, and a server panics (`C32_false_split`). -/
example : ∃ kcs : Pair2 mixToy, Spec.LevelState mixToy 2 2 0 [[]] kcs ∧
    kcs.1.reportShares.map Prod.fst = [false, true, true] ∧
    runLevel (toyCfg 0 (some 2) .debug) (toyCfg 1 (some 2) .debug) ⟨some 2, 2, 1, 2, 1, 2⟩ kcs
      kcs.1.reportShares.length = .error .zeroChunk := by
  obtain ⟨kcs, e0, e1, hL⟩ := mix_states (flags := [false, true, true]) (cheat := [1])
    (by decide +kernel) (by decide +kernel)
  refine ⟨kcs, hL, by rw [e0]; decide +kernel, ?_⟩
  exact C32_false_split hL _ _ rfl (by decide) (by omega) (fun x _ => toy_clog x)
    (by rw [e0]; decide +kernel) (by rw [e0, e1]; exact separated_of (by decide +kernel))
    ⟨1, by rw [e0, e1]; decide +kernel⟩

/-- Two clients, both excluded before (`C32_false_nobody`). -/
example : ∃ kcs : Pair2 mixToy, Spec.LevelState mixToy 2 2 0 [[]] kcs ∧
    kcs.1.reportShares.map Prod.fst = [false, false] ∧
    runLevel (toyCfg 0 (some 2) .debug) (toyCfg 1 (some 2) .debug) ⟨some 2, 2, 1, 2, 1, 2⟩ kcs 2 = .error .index := by
  obtain ⟨kcs, e0, e1, hL⟩ := mix_states (flags := [false, false]) (cheat := [])
    (by decide +kernel) (by decide +kernel)
  exact ⟨kcs, hL, by rw [e0]; decide +kernel,
    C32_false_nobody hL _ _ 2 (by decide) (by omega) (by rw [e0]; decide +kernel)⟩

/-- Two included clients that both cheat: nobody stays included, and the level does not complete
(`C32_completes_partial`). -/
example : ∃ kcs : Pair2 mixToy, Spec.LevelState mixToy 2 2 0 [[]] kcs ∧
    kcs.1.reportShares.map Prod.fst = [true, true] ∧
    ¬ Returns (runLevel (toyCfg 0 (some 2) .debug) (toyCfg 1 (some 2) .debug) ⟨some 2, 2, 1, 2, 1, 2⟩ kcs
      kcs.1.reportShares.length) := by
  obtain ⟨kcs, e0, e1, hL⟩ := mix_states (flags := [true, true]) (cheat := [0, 1])
    (by decide +kernel) (by decide +kernel)
  have hlen : (mixR [true, true] [0, 1] false).length = 2 := by decide +kernel
  refine ⟨kcs, hL, by rw [e0]; decide +kernel, ?_⟩
  rw [C32_completes_partial hL _ _ rfl (by decide) (by omega) (fun x _ => toy_clog x)
    (by rw [e0, e1]; exact separated_of (by decide +kernel)) ⟨0, by rw [e0, e1]; decide +kernel⟩]
  rintro ⟨-, i, r, hi, hc⟩
  have hlt := (List.getElem?_eq_some_iff.1 hi).1
  rw [e0, hlen] at hlt
  rw [e0, e1] at hc
  have h0 := hc 0 (by decide +kernel)
  have h1 := hc 1 (by decide +kernel)
  have hr0 : Spec.rank (mixR [true, true] [0, 1] false) 0 = 0 := by decide +kernel
  have hr1 : Spec.rank (mixR [true, true] [0, 1] false) 1 = 1 := by decide +kernel
  omega

end Mastic
