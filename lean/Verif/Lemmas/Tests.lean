import Verif.Model.Tests
import Verif.Spec.Tests
import Verif.Lemmas.Whh
import Verif.Lemmas.Search
import Verif.Props.Lib

/-!
# Lemmas about the test programs
-/

namespace Mastic

variable {P : Prims}

theorem textBits_eq (s : List Byte) : Spec.textBits s = expBits s := rfl

/-- The two shares of a client of `tests/collect_test.rs`. -/
def testShares (P : Prims) (n : Nat) (c : TestClient) : (Bool × ReportShare) × (Bool × ReportShare) :=
  let keys := VidpfKey.gen P c.seeds (expBits c.str) ((encodeMeasurement n c.bucket).getD [])
  ((true, testShare keys.1), (true, testShare keys.2))

theorem encodeMeasurement_some {n b : Nat} (h : b < n) : ∃ beta, encodeMeasurement n b = some beta := by
  unfold encodeMeasurement
  exact ⟨_, if_pos h⟩

theorem testAdd_ok {n : Nat} (cols : Pair2 P) (c : TestClient) (h : c.bucket < n) :
    testAdd n cols c = .ok (cols.1.addReportShare (testShares P n c).1.2, cols.2.addReportShare (testShares P n c).2.2) := by
  obtain ⟨beta, hb⟩ := encodeMeasurement_some h
  unfold testAdd VidpfKey.genFromStr testShares
  rw [hb, stringToBits_eq]
  rfl

theorem testAdds_ok {n : Nat} (clients : List TestClient) (h : ∀ c ∈ clients, c.bucket < n) (k0 k1 : KeyCollection P) :
    foldE (testAdd n) (k0, k1) clients
      = .ok ({ k0 with reportShares := k0.reportShares ++ clients.map fun c => (testShares P n c).1 },
        { k1 with reportShares := k1.reportShares ++ clients.map fun c => (testShares P n c).2 }) := by
  induction clients generalizing k0 k1 with
  | nil => simp [foldE]
  | cons c cs ih =>
    rw [foldE_cons, testAdd_ok _ _ (h c (by simp)), ok_bind, ih fun c hc => h c (by simp [hc])]
    simp [KeyCollection.addReportShare, testShares]

theorem test_facts {n d : Nat} (clients : List TestClient) (hb : ∀ c ∈ clients, c.bucket < n)
    (hd : ∀ c ∈ clients, (expBits c.str).length = d) :
    Spec.QuietReports P n d (clients.map fun c => (testShares P n c).1) (clients.map fun c => (testShares P n c).2) ∧
      (∀ br ∈ clients.map (fun c => (testShares P n c).1), Spec.WellFormed d br.2) ∧
      (∀ br ∈ clients.map (fun c => (testShares P n c).2), Spec.WellFormed d br.2) ∧
      List.Forall₂ (PairOf P n d)
        (Spec.keyPairs (clients.map fun c => (testShares P n c).1) (clients.map fun c => (testShares P n c).2))
        (clients.map fun c => (expBits c.str, c.bucket)) := by
  induction clients with
  | nil => exact ⟨⟨rfl, by simp⟩, by simp, by simp, .nil⟩
  | cons c cs ih =>
    obtain ⟨⟨i1, i2⟩, i3, i4, i5⟩ := ih (fun c hc => hb c (by simp [hc])) fun c hc => hd c (by simp [hc])
    obtain ⟨beta, hbeta⟩ := encodeMeasurement_some (hb c (by simp))
    obtain ⟨hl, -⟩ := encodeMeasurement_length hbeta
    have hc := hd c (by simp)
    obtain ⟨g0, g1⟩ := gen_lengths P c.seeds (expBits c.str) beta false
    obtain ⟨g2, g3⟩ := gen_lengths P c.seeds (expBits c.str) beta true
    simp only [Pair.get] at g0 g1 g2 g3
    have e0 : Spec.keyOf (testShares P n c).1.2 = some (VidpfKey.gen P c.seeds (expBits c.str) beta).1 := by
      simp [testShares, hbeta, testShare, Spec.keyOf]
    have e1 : Spec.keyOf (testShares P n c).2.2 = some (VidpfKey.gen P c.seeds (expBits c.str) beta).2 := by
      simp [testShares, hbeta, testShare, Spec.keyOf]
    refine ⟨⟨by simpa [testShares] using i1, ?_⟩, ?_, ?_, ?_⟩
    · rintro (_ | i) t0 t1 h0 h1
      · simp only [List.map_cons, List.getElem?_cons_zero, Option.some.injEq] at h0 h1
        rw [h0] at e0
        rw [h1] at e1
        exact ⟨_, _, e0, e1, hl ▸ hc ▸ honest_quiet c.seeds _ _⟩
      · exact i2 i t0 t1 (by simpa using h0) (by simpa using h1)
    · intro br hbr
      rcases List.mem_cons.1 hbr with rfl | hbr
      · exact ⟨_, e0, by omega, by omega⟩
      · exact i3 br hbr
    · intro br hbr
      rcases List.mem_cons.1 hbr with rfl | hbr
      · exact ⟨_, e1, by omega, by omega⟩
      · exact i4 br hbr
    · have : Spec.keyPairs ((c :: cs).map fun c => (testShares P n c).1) ((c :: cs).map fun c => (testShares P n c).2)
          = ((VidpfKey.gen P c.seeds (expBits c.str) beta).1, (VidpfKey.gen P c.seeds (expBits c.str) beta).2) ::
            Spec.keyPairs (cs.map fun c => (testShares P n c).1) (cs.map fun c => (testShares P n c).2) := by
        have f0 : (testShares P n c).1.1 = true := rfl
        have f1 : (testShares P n c).2.1 = true := rfl
        simp [Spec.keyPairs, e0, e1, f0, f1]
      rw [this]
      exact .cons ⟨beta, hbeta, fun p hp hpl => hl ▸ honest_recon c.seeds _ beta p hp (hc.symm ▸ hpl)⟩ i5

theorem testLevel_quiet {n d m T l : Nat} {r0 r1 : List (Bool × ReportShare)} {paths : List (List Bool)} {kcs : Pair2 P}
    (h : Both n d m r0 r1 paths kcs) (bld : Build) (hne : paths ≠ []) (hm : m < d)
    (hk0 : KeysReach m r0) (hk1 : KeysReach m r1) (hf : r0.map Prod.fst = r1.map Prod.fst)
    (hi0 : Spec.included r0 ≠ []) (hi1 : Spec.included r1 ≠ []) :
    ∃ kcs', testLevel bld n T kcs l = .ok kcs' ∧ Both n d (m + 1) r0 r1 (survivors P n T r0 r1 paths) kcs' := by
  obtain ⟨root0, hroot0⟩ := merkleRoots_one (P := P) (digests_ne hk0 hi0 (n := n) (first := true)
    (paths := paths)) [] false
  obtain ⟨root1, hroot1⟩ := merkleRoots_one (P := P) (digests_ne hk1 hi1 (n := n) (first := false)
    (paths := paths)) [] false
  obtain ⟨nx0, k0, e0, a0, f0, -, s0⟩ := h.fst.treeCrawl bld hk0 hne hm 1 false hroot0
  obtain ⟨nx1, k1, e1, a1, f1, -, s1⟩ := h.snd.treeCrawl bld hk1 hne hm 1 false hroot1
  have hN : Nodes (P := P) n r0 r1 (kids paths) nx0 nx1 :=
    ⟨hf, kids_ne, f0 ▸ a0.pth, f1 ▸ a1.pth, s0, s1⟩
  have hkeep := hN.keep T
  obtain ⟨k0', p0, -, b0⟩ := a0.prune fun p => decide (T ≤ Spec.countAt P n (Spec.keyPairs r0 r1) p)
  obtain ⟨k1', p1, -, b1⟩ := a1.prune fun p => decide (T ≤ Spec.countAt P n (Spec.keyPairs r0 r1) p)
  refine ⟨(k0', k1'), ?_, b0, b1⟩
  unfold testLevel
  rw [e0, ok_bind]
  dsimp only
  rw [e1, ok_bind]
  dsimp only
  rw [List.length_map, List.length_map, hN.length.1, hN.length.2, beq_self_eq_true, assertE_true, ok_bind, hkeep, ok_bind,
    p0, ok_bind, p1, ok_bind]

theorem testLevel_empty {kcs : Pair2 P} (h : kcs.1.frontier = []) (bld : Build) (n T l : Nat) :
    testLevel bld n T kcs l = .error .index := by
  unfold testLevel
  simp [KeyCollection.treeCrawl, KeyCollection.crawlPrep, KeyCollection.crawlLevel, h, idx]

theorem testLevels {n d T : Nat} {r0 r1 : List (Bool × ReportShare)} (bld : Build)
    (hk0 : KeysReach (d - 1) r0) (hk1 : KeysReach (d - 1) r1) (hf : r0.map Prod.fst = r1.map Prod.fst)
    (hi0 : Spec.included r0 ≠ []) (hi1 : Spec.included r1 ≠ []) {α : Type} (f : Pair2 P → α → Exec (Pair2 P))
    (hfl : ∀ kcs a, f kcs a = testLevel bld n T kcs 0) :
    ∀ (ls : List α) (m : Nat) (kcs : Pair2 P), m + ls.length < d →
      Both n d m r0 r1 (Spec.heavyPaths P n T (Spec.keyPairs r0 r1) m) kcs →
      (ls = [] ∨ Spec.heavyPaths P n T (Spec.keyPairs r0 r1) (m + ls.length - 1) ≠ [] →
        ∃ kcs', foldE f kcs ls = .ok kcs' ∧
          Both n d (m + ls.length) r0 r1 (Spec.heavyPaths P n T (Spec.keyPairs r0 r1) (m + ls.length)) kcs') ∧
      (ls ≠ [] → Spec.heavyPaths P n T (Spec.keyPairs r0 r1) (m + ls.length - 1) = [] →
        foldE f kcs ls = .error .index) := by
  intro ls
  induction ls with
  | nil => intro m kcs _ h; exact ⟨fun _ => ⟨kcs, rfl, h⟩, fun h => absurd rfl h⟩
  | cons a ls ih =>
    intro m kcs hm h
    simp only [List.length_cons] at hm ⊢
    rw [foldE_cons, hfl]
    by_cases hne : Spec.heavyPaths P n T (Spec.keyPairs r0 r1) m = []
    · have hfr : kcs.1.frontier = [] := by
        have := h.fst.pth
        rw [hne] at this
        exact List.map_eq_nil_iff.1 this
      refine ⟨?_, fun _ _ => by rw [testLevel_empty hfr]; rfl⟩
      rintro (h' | h')
      · cases h'
      · exact absurd hne (heavyPaths_ne_le (by omega) h')
    · obtain ⟨kcs', e, b⟩ := testLevel_quiet (T := T) (l := 0) h bld hne (by omega) (hk0.mono (by omega))
        (hk1.mono (by omega)) hf hi0 hi1
      rw [survivors_heavyPaths] at b
      rw [e, ok_bind]
      obtain ⟨i1, i2⟩ := ih (m + 1) kcs' (by omega) b
      rw [show m + 1 + ls.length = m + (ls.length + 1) by omega] at i1 i2
      constructor
      · rintro (h' | h')
        · cases h'
        · exact i1 (.inr h')
      · intro _ h'
        refine i2 ?_ h'
        rintro rfl
        exact hne (by simpa using h')

/-- A configuration of the driver that goes with the constants of the test. -/
def testCfg (n T k d : Nat) : Config := ⟨some d, n, 1, max 1 k, 1, T⟩

def testServer : ServerCfg := ⟨0, none, .release, id, fun _ => .refl _⟩

theorem testLast_quiet {n d T k : Nat} {r0 r1 : List (Bool × ReportShare)} {paths : List (List Bool)} {kcs : Pair2 P}
    (hd : 1 ≤ d) (h : Both n d (d - 1) r0 r1 paths kcs) (hn : 1 ≤ n) (hT : 1 ≤ T)
    (hk0 : KeysReach (d - 1) r0) (hk1 : KeysReach (d - 1) r1) (hq : Spec.QuietReports P n d r0 r1) (hnd : paths.Nodup) :
    testLast n T k kcs = .ok (resultsOf P n (Spec.keyPairs r0 r1) (survivors P n T r0 r1 paths)) := by
  have hp := proofs_quiet hq hnd fun p hp => by rw [h.fst.len p hp]; omega
  obtain ⟨out, ho, -, -, hres, -⟩ := runLevelLast_quiet h testServer testServer (testCfg n T k d) k rfl hn (by simp [testCfg])
    (by simp only [testCfg]; omega) hk0 hk1 hq.1 (.inl hp)
  obtain ⟨nx0, pf0, k0, e0, g0, -, -, -, q0⟩ := treeCrawlLast_at h.fst hk0
  obtain ⟨nx1, pf1, k1, e1, g1, -, -, -, q1⟩ := treeCrawlLast_at h.snd hk1
  have hpf : k0.finalProofs = k1.finalProofs := by rw [g0, g1, q0, q1, hp]
  have hgp : k0.getProofs 0 k = k1.getProofs 0 k := by
    unfold KeyCollection.getProofs
    rw [hpf]
  rw [show max 1 (testCfg n T k d).threshold = T by simp only [testCfg]; omega] at hres
  unfold runLevelLast at ho
  rw [e0, ok_bind] at ho
  dsimp only at ho
  rw [e1, ok_bind] at ho
  dsimp only at ho
  obtain ⟨_, ha, ho⟩ := bind_eq_ok.1 ho
  obtain ⟨keep, hkeep, ho⟩ := bind_eq_ok.1 ho
  obtain ⟨_, -, ho⟩ := bind_eq_ok.1 ho
  obtain ⟨_, -, ho⟩ := bind_eq_ok.1 ho
  obtain ⟨kk, hkk, ho⟩ := bind_eq_ok.1 ho
  obtain ⟨_, -, ho⟩ := bind_eq_ok.1 ho
  obtain ⟨res, hr, ho⟩ := bind_eq_ok.1 ho
  obtain ⟨pr, -, ho⟩ := bind_eq_ok.1 ho
  cases ho
  unfold pruneBoth at hkk
  obtain ⟨k0', hk0', hkk⟩ := bind_eq_ok.1 hkk
  obtain ⟨k1', hk1', hkk⟩ := bind_eq_ok.1 hkk
  cases hkk
  rw [show max 1 (testCfg n T k d).threshold = T by simp only [testCfg]; omega] at hkeep
  have hall : ((k1.getProofs 0 k).zip (k1.getProofs 0 k)).all (fun hh => hh.1 == hh.2) = true := by
    rw [List.all_eq_true]
    intro x hx
    have : x.1 = x.2 := by
      obtain ⟨i, hi, rfl⟩ := List.getElem_of_mem hx
      simp
    simp [this]
  unfold testLast
  rw [e0, ok_bind]
  dsimp only
  rw [e1, ok_bind]
  dsimp only
  rw [ha, ok_bind, hgp, beq_self_eq_true, assertE_true, ok_bind, hall, assertE_true, ok_bind]
  have hkeep' : keepValues n T (nx0.map TreeNode.value) (nx1.map TreeNode.value) = .ok keep := hkeep
  rw [hkeep', ok_bind, hk0', ok_bind, hk1', ok_bind]
  exact hr.trans (by rw [← hres])

theorem included_true {r : List (Bool × ReportShare)} (h : r ≠ []) (ht : ∀ br ∈ r, br.1 = true) :
    Spec.included r ≠ [] := by
  rw [← List.length_pos_iff, included_count, List.countP_pos_iff]
  obtain ⟨x, hx⟩ := List.exists_mem_of_ne_nil _ h
  exact ⟨x, hx, ht x hx⟩

/-- The clients as the specification sees them. -/
def TestClient.plain (c : TestClient) : List Byte × Nat := (c.str, c.bucket)

theorem startingWith_eq (clients : List TestClient) (p : List Bool) :
    (Spec.holders (clients.map fun c => (expBits c.str, c.bucket)) p).length
      = Spec.startingWith (clients.map TestClient.plain) p := by
  unfold Spec.holders Spec.startingWith
  rw [← List.countP_eq_length_filter, List.countP_map, List.countP_map]
  rfl

theorem bucketsOf_eq (clients : List TestClient) (s : List Byte) :
    ((clients.map fun c => (expBits c.str, c.bucket)).filter fun c => c.1 == expBits s).map Prod.snd
      = Spec.bucketsOf (clients.map TestClient.plain) s := by
  unfold Spec.bucketsOf
  rw [List.filter_map, List.filter_map, List.map_map, List.map_map]
  have : ((fun c : List Bool × Nat => c.1 == expBits s) ∘ fun c : TestClient => (expBits c.str, c.bucket))
      = (fun c : List Byte × Nat => decide (c.1 = s)) ∘ TestClient.plain := by
    funext c
    rw [Bool.eq_iff_iff]
    show (expBits c.str == expBits s) = true ↔ decide (c.str = s) = true
    rw [beq_iff_eq, decide_eq_true_eq]
    exact ⟨expBits_injective, fun h => by rw [h]⟩
  rw [this]
  rfl

theorem countP_bucketsOf (clients : List TestClient) (s : List Byte) :
    ((clients.map fun c => (expBits c.str, c.bucket)).countP fun c => c.1 == expBits s)
      = (Spec.bucketsOf (clients.map TestClient.plain) s).length := by
  rw [← bucketsOf_eq, List.length_map, List.countP_eq_length_filter]

theorem collectTest_run {bld : Build} {n T k L : Nat} {vk : Block} {clients : List TestClient} (hne : clients ≠ [])
    (hlen : ∀ c ∈ clients, c.str.length = L) (hL : 1 ≤ L) (hb : ∀ c ∈ clients, c.bucket < n)
    (hT : 1 ≤ T) (hcnt : clients.length < 2 ^ 64) :
    ((∃ p, p.length = 8 * L - 2 ∧ T ≤ Spec.startingWith (clients.map TestClient.plain) p) →
      ∃ res : List HHResult, res.map (fun r => (r.path, r.value))
          = Spec.heavyHitters n T (8 * L) (clients.map fun c => (expBits c.str, c.bucket)) ∧
        collectTest P bld n T k vk clients = mapE (fun r : HHResult => do
          let s ← bitsToString r.path
          .ok (s, r.value)) res) ∧
    (¬ (∃ p, p.length = 8 * L - 2 ∧ T ≤ Spec.startingWith (clients.map TestClient.plain) p) →
      collectTest P bld n T k vk clients = .error .index) := by
  obtain ⟨c, cs, rfl⟩ := List.exists_cons_of_ne_nil hne
  have hn : 1 ≤ n := by have := hb c (by simp); omega
  have hbits : ∀ c' ∈ c :: cs, (expBits c'.str).length = 8 * L := fun c' hc => by rw [expBits_length, hlen c' hc]
  have hcl := hbits c (by simp)
  generalize hcls : c :: cs = clients at *
  obtain ⟨hq, w0, w1, hF⟩ := test_facts (P := P) clients hb hbits
  generalize hr0 : (clients.map fun c => (testShares P n c).1) = r0 at *
  generalize hr1 : (clients.map fun c => (testShares P n c).2) = r1 at *
  have hk0 := wellFormed_reach (d := 8 * L) (by omega) w0
  have hk1 := wellFormed_reach (d := 8 * L) (by omega) w1
  have hi0 : Spec.included r0 ≠ [] := included_true (by rw [← hr0]; simpa using hne) (by
    intro br hbr
    rw [← hr0] at hbr
    obtain ⟨x, -, rfl⟩ := List.mem_map.1 hbr
    rfl)
  have hi1 : Spec.included r1 ≠ [] := included_true (by rw [← hr1]; simpa using hne) (by
    intro br hbr
    rw [← hr1] at hbr
    obtain ⟨x, -, rfl⟩ := List.mem_map.1 hbr
    rfl)
  have hcl2 : (clients.map fun c => (expBits c.str, c.bucket)).length < 2 ^ 64 := by simpa using hcnt
  have hheavy : (∃ p, p.length = 8 * L - 2 ∧ T ≤ Spec.startingWith (clients.map TestClient.plain) p) ↔
      Spec.heavyPaths P n T (Spec.keyPairs r0 r1) (8 * L - 2) ≠ [] := by
    constructor
    · rintro ⟨p, hp, hT'⟩
      refine List.ne_nil_of_mem (List.mem_filter.2 ⟨mem_allPaths.2 hp, ?_⟩)
      rw [heavy_clients hF hcl2 (by rintro rfl; simp at hp; omega) (by omega), startingWith_eq]
      exact decide_eq_true hT'
    · intro h
      obtain ⟨p, hp⟩ := List.exists_mem_of_ne_nil _ h
      obtain ⟨hp1, hp2⟩ := List.mem_filter.1 hp
      have hp := mem_allPaths.1 hp1
      rw [heavy_clients hF hcl2 (by rintro rfl; simp at hp; omega) (by omega), startingWith_eq] at hp2
      exact ⟨p, hp, of_decide_eq_true hp2⟩
  -- the start
  let K0 : KeyCollection P := { KeyCollection.new P n 0 (some (8 * L)) vk with reportShares := r0 }
  let K1 : KeyCollection P := { KeyCollection.new P n 1 (some (8 * L)) vk with reportShares := r1 }
  obtain ⟨t0, ht0⟩ := treeInit_progress (kc := K0) (hk0.mono (by omega))
  obtain ⟨t1, ht1⟩ := treeInit_progress (kc := K1) (hk1.mono (by omega))
  obtain ⟨root0, hf0, he0⟩ := treeInit_fresh ht0
  obtain ⟨root1, hf1, he1⟩ := treeInit_fresh ht1
  have hB : Both n (8 * L) 0 r0 r1 (Spec.heavyPaths P n T (Spec.keyPairs r0 r1) 0) (t0, t1) := by
    rw [heavyPaths_zero]
    have a0 := hf0.at (n := n) (d := 8 * L) (first := true) (reports := r0) (by rw [he0]; rfl) (by rw [he0]; rfl)
      (by rw [he0]; rfl) (by rw [he0])
    have a1 := hf1.at (n := n) (d := 8 * L) (first := false) (reports := r1) (by rw [he1]; rfl) (by rw [he1]; rfl)
      (by rw [he1]; rfl) (by rw [he1])
    refine ⟨?_, ?_⟩
    · convert a0 using 1
      rw [he0]
    · convert a1 using 1
      rw [he1]
  obtain ⟨g1, g2⟩ := testLevels (T := T) bld hk0 hk1 hq.1 hi0 hi1 (testLevel bld n T) (fun _ _ => rfl)
    (List.range (8 * L - 1)) 0 (t0, t1) (by simp; omega) hB
  simp only [List.length_range, Nat.zero_add] at g1 g2
  rw [show 8 * L - 1 - 1 = 8 * L - 2 by omega] at g1 g2
  have hlc : levelCount bld (some (8 * L)) = .ok (8 * L - 1) := by
    unfold levelCount
    rw [unwrapO_some, ok_bind, if_neg (by omega)]
  have hstart : collectTest P bld n T k vk clients = (do
      let cols ← foldE (testLevel bld n T) (t0, t1) (List.range (8 * L - 1))
      let results ← testLast n T k cols
      mapE (fun r : HHResult => do
        let s ← bitsToString r.path
        .ok (s, r.value)) results) := by
    unfold collectTest
    rw [show idx clients 0 = .ok c by rw [← hcls]; rfl, ok_bind,
      show stringToBits c.str = .ok (expBits c.str) from stringToBits_eq _, ok_bind, hcl,
      testAdds_ok clients hb, ok_bind]
    have e0 : ({ KeyCollection.new P n 0 (some (8 * L)) vk with
        reportShares := (KeyCollection.new P n 0 (some (8 * L)) vk).reportShares ++ clients.map fun c => (testShares P n c).1 }
          : KeyCollection P) = K0 := by rw [hr0]; rfl
    have e1 : ({ KeyCollection.new P n 1 (some (8 * L)) vk with
        reportShares := (KeyCollection.new P n 1 (some (8 * L)) vk).reportShares ++ clients.map fun c => (testShares P n c).2 }
          : KeyCollection P) = K1 := by rw [hr1]; rfl
    rw [e0, e1]
    dsimp only
    rw [ht0, ok_bind, ht1, ok_bind, hlc, ok_bind]
  rw [hheavy, hstart]
  constructor
  · intro h
    obtain ⟨kcs', e, b⟩ := g1 (.inr h)
    rw [e, ok_bind, testLast_quiet (by omega) b hn hT hk0 hk1 hq (heavyPaths_nodup _ _ _ _), ok_bind, survivors_heavyPaths,
      show 8 * L - 1 + 1 = 8 * L by omega]
    exact ⟨_, results_clients hF (by omega) hcl2 (by simpa using hbits), rfl⟩
  · intro h
    rw [g2 (by simp; omega) (not_not.1 h)]
    rfl

/-! ### `tests/dpf_test.rs` -/

theorem foldE_keeps {σ α : Type} {f : σ → α → Exec σ} (I : σ → Prop) :
    ∀ (l : List α) (s : σ), I s → (∀ s, ∀ a ∈ l, I s → ∃ s', f s a = .ok s' ∧ I s') →
      ∃ s', foldE f s l = .ok s' ∧ I s' := by
  intro l
  induction l with
  | nil => intro s h _; exact ⟨s, rfl, h⟩
  | cons a l ih =>
    intro s h hf
    obtain ⟨s', e, h'⟩ := hf s a (by simp) h
    rw [foldE_cons, e, ok_bind]
    exact ih s' h' fun s a ha => hf s a (by simp [ha])

theorem take_prefix_iff {a b : List Bool} {j : Nat} (ha : j ≤ a.length) (hb : j ≤ b.length) :
    b.take j <+: a ↔ a.take j = b.take j := by
  rw [List.prefix_iff_eq_take, List.length_take, Nat.min_eq_left hb]
  exact eq_comm

theorem dpfStep_ok (bld : Build) (seeds : Block × Block) {alpha alphaEval : List Bool} (b : Field128) (pi : Block) {j : Nat}
    (hl : alphaEval.length = alpha.length) (h2 : 2 ≤ j) (hj : j ≤ alpha.length) :
    ∃ pi', dpfStep P bld (VidpfKey.gen P seeds alpha [b]) alpha alphaEval b (pi, pi) j = .ok (pi', pi') := by
  have hlen : (alphaEval.take j).length = j := by rw [List.length_take]; omega
  obtain ⟨o0, l0, q0, o1, l1, q1, e0, e1, n0, n1, hpi, hz⟩ := honest_eval P bld bld seeds alpha [b] (alphaEval.take j) pi pi
    (by rw [← List.length_pos_iff, hlen]; omega) (by omega)
  rw [hlen] at n0 n1 hz
  have hv := congrArg (fun l => l[j - 2]?) hz
  simp only [List.getElem?_zipWith] at hv
  rw [List.getElem?_append_left (by omega), List.getElem?_append_left (by omega), List.getElem?_map,
    List.getElem?_range (by omega), List.getElem?_eq_getElem (by omega), List.getElem?_eq_getElem (by omega)] at hv
  simp only [Option.map_some, Option.some.injEq] at hv
  rw [show j - 2 + 1 = j - 1 by omega, List.take_take, Nat.min_eq_left (by omega)] at hv
  unfold dpfStep
  dsimp only
  rw [show ([b] : List Field128).length = 1 from rfl] at e0 e1
  rw [e0, ok_bind]
  dsimp only
  rw [e1, ok_bind]
  dsimp only
  rw [idx_eq_ok_of_lt (show j - 2 < o0.length by omega), ok_bind]
  rw [idx_eq_ok_of_lt (show j - 2 < o1.length by omega)]
  generalize o0[j - 2] = y0 at hv
  generalize o1[j - 2] = y1 at hv
  have hcase : Spec.pointValue alpha [b] (alphaEval.take (j - 1))
      = [if alpha.take (j - 1) = alphaEval.take (j - 1) then b else 0,
        if alpha.take (j - 1) = alphaEval.take (j - 1) then 1 else 0] := by
    unfold Spec.pointValue
    by_cases h : alpha.take (j - 1) = alphaEval.take (j - 1)
    · rw [if_pos ((take_prefix_iff (by omega) (by omega)).2 h), if_pos h, if_pos h]; rfl
    · rw [if_neg (fun h' => h ((take_prefix_iff (by omega) (by omega)).1 h')), if_neg h, if_neg h]; rfl
  rw [hcase] at hv
  match y0, y1, hv with
  | x0 :: _, x1 :: _, hv =>
    simp only [Spec.addShares, List.zipWith_cons_cons, List.cons.injEq] at hv
    refine ⟨q0, ?_⟩
    have i0 : ∀ l : List Field128, idx (x0 :: l) 0 = .ok x0 := fun _ => rfl
    have i1 : ∀ l : List Field128, idx (x1 :: l) 0 = .ok x1 := fun _ => rfl
    rw [i0, ok_bind, ok_bind, i1, ok_bind, hv.1, ← hpi rfl]
    by_cases h : alpha.take (j - 1) = alphaEval.take (j - 1)
    · simp only [if_pos h, beq_self_eq_true, assertE_true, ok_bind]
    · simp only [if_neg h, beq_self_eq_true, assertE_true, ok_bind]
  | [], y1, hv => simp [Spec.addShares] at hv
  | x :: y, [], hv => simp [Spec.addShares] at hv

theorem dpfTest_ok (bld : Build) (nbits : Nat) (a : BitVec 32) (b : Field128) (seeds : Block × Block) (h : nbits ≤ 32) :
    dpfTest P bld nbits a b seeds = .ok () := by
  obtain ⟨alpha, ha, hal, -⟩ := C16_bits nbits a h
  unfold dpfTest
  rw [ha, ok_bind]
  obtain ⟨s', e, -⟩ := foldE_keeps (f := dpfPoint P bld nbits (VidpfKey.gen P seeds alpha [b]) alpha b)
    (fun pis : Block × Block => pis.1 = pis.2) (List.range (2 ^ nbits)) (first16 (P.blake3 [48#8]), first16 (P.blake3 [48#8]))
    rfl (by
      rintro ⟨q0, q1⟩ i - (hq : q0 = q1)
      subst hq
      obtain ⟨ev, he, hel, -⟩ := C16_bits nbits (BitVec.ofNat 32 i) h
      unfold dpfPoint
      rw [he, ok_bind]
      obtain ⟨⟨t0, t1⟩, e', (ht : t0 = t1)⟩ := foldE_keeps
        (f := dpfStep P bld (VidpfKey.gen P seeds alpha [b]) alpha ev b)
        (fun pis : Block × Block => pis.1 = pis.2) (List.range' 2 (nbits - 1 - 2)) (q0, q0) rfl (by
          rintro ⟨u0, u1⟩ j hj (hu : u0 = u1)
          subst hu
          rw [List.mem_range'_1] at hj
          obtain ⟨pi', hp⟩ := dpfStep_ok (P := P) bld seeds b u0 (hel.trans hal.symm) hj.1 (by omega)
          exact ⟨_, hp, rfl⟩)
      subst ht
      exact ⟨(t0, t0), by rw [e', ok_bind]; simp, rfl⟩)
  dsimp only
  rw [e, ok_bind]

/-! ### `src/vidpf.rs` -/

theorem treeTest_ok (seeds : Block × Block) {str : List Byte} (beta : List Field128) {attributes : List (List Byte)}
    (hs : str ≠ []) (ha : ∀ a ∈ attributes, a ≠ [] ∧ a.length ≤ str.length) (expected : List (List Field128)) :
    treeTest P seeds str beta attributes expected
      = assertE (((attributes.map fun a => Spec.pointValue (expBits str) beta (expBits a)).zip expected).all
          fun ve => ve.1 == ve.2) := by
  have hgen : VidpfKey.genFromStr P seeds str beta = .ok (VidpfKey.gen P seeds (expBits str) beta) := by
    unfold VidpfKey.genFromStr
    rw [show stringToBits str = .ok (expBits str) from stringToBits_eq _]
    rfl
  have hpaths : mapE stringToBits attributes = .ok (attributes.map expBits) :=
    mapE_ok_of_forall fun a _ => stringToBits_eq a
  have hlen : ∀ a : List Byte, (expBits a).length = 8 * a.length := expBits_length
  have hsl := List.length_pos_iff.2 hs
  obtain ⟨v0, b0, v1, b1, bytes, e0, e1, l0, l1, hv, hb⟩ := honest_evalTree P seeds (expBits str) beta (attributes.map expBits)
    (by rw [← List.length_pos_iff, hlen]; omega) (by
      intro p hp
      obtain ⟨a, hap, rfl⟩ := List.mem_map.1 hp
      have := ha a hap
      have h0 := List.length_pos_iff.2 this.1
      exact ⟨by rw [← List.length_pos_iff, hlen]; omega, by rw [hlen, hlen]; omega⟩)
  obtain ⟨f0, -, x0, y0, -, -, -, lx0, ly0, -, hb0, -⟩ := evalTree_spec e0
  obtain ⟨f1, -, x1, y1, -, -, -, lx1, ly1, -, hb1, -⟩ := evalTree_spec e1
  have lb0 : b0.length = beta.length := by rw [hb0, List.length_take, addShares_length lx0 ly0]; omega
  have lb1 : b1.length = beta.length := by rw [hb1, List.length_take, addShares_length lx1 ly1]; omega
  have hz : List.zipWith vecAdd v0 v1 = attributes.map fun a => Spec.pointValue (expBits str) beta (expBits a) := by
    rw [List.map_map] at hv
    refine Eq.trans ?_ hv
    have g0 : ∀ v ∈ v0, v.length = beta.length + 1 := by
      intro v hvm
      obtain ⟨i, hi, rfl⟩ := List.getElem_of_mem hvm
      exact ((List.forall₂_iff_get.1 f0).2 i (by rw [← l0]; exact hi) hi).2
    have g1 : ∀ v ∈ v1, v.length = beta.length + 1 := by
      intro v hvm
      obtain ⟨i, hi, rfl⟩ := List.getElem_of_mem hvm
      exact ((List.forall₂_iff_get.1 f1).2 i (by rw [← l1]; exact hi) hi).2
    refine List.ext_getElem (by simp) fun i h1 h2 => ?_
    rw [List.getElem_zipWith, List.getElem_zipWith]
    exact vecAdd_eq_addShares ((g0 _ (List.getElem_mem _)).trans (g1 _ (List.getElem_mem _)).symm)
  unfold treeTest
  rw [hgen, ok_bind, hpaths]
  have hkey : (VidpfKey.gen P seeds (expBits str) beta).1.keyIdx = false ∧
      (VidpfKey.gen P seeds (expBits str) beta).2.keyIdx = true := ⟨rfl, rfl⟩
  rw [hkey.1, hkey.2, beq_self_eq_true, beq_self_eq_true, assertE_true, ok_bind, ok_bind, ok_bind, e0, ok_bind]
  dsimp only
  rw [e1, ok_bind]
  dsimp only
  rw [List.length_map] at l0 l1
  rw [l0, l1, lb0, lb1, vecAdd_eq_addShares (lb0.trans lb1.symm), hb, hz]
  simp only [beq_self_eq_true, assertE_true, ok_bind]
  generalize assertE _ = z
  cases z <;> rfl

end Mastic
