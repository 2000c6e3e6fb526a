import Verif.Lemmas.Log2
import Verif.Lemmas.ToySearch
import Verif.Props.Search
import Verif.Lemmas.Run

/-!
# C108: the Merkle trees and the number of clients

The number of leaves is `2 ^ ceil(log2 n)` in single precision (`src/collect.rs:485`), and only the first so many
digests enter the root that the servers exchange.  It covers all `n` included clients up to 2^20 of them, and for a
correctly rounded logarithm up to 2^21; above it misses the last ones, and cheaters there are not noticed.
-/

namespace Mastic

variable {P : Prims}

/-- **C108, up to 2^20 clients.** A logarithm with an error of less than one unit in the last place gives the number
of levels that a tree over all clients needs. -/
theorem C108_small_partial {f : ℚ → ℚ} (hf : Spec.FaithfulLog2 f) {m : Nat} (hm : m ≤ 2 ^ 20) :
    ceilLog2F32 f m = Nat.clog 2 m := by
  refine log2f_small hf (by omega) fun k hk hlo hhi => ?_
  have hk20 : k < 20 := (Nat.pow_lt_pow_iff_right (by omega : 1 < 2)).1 (hlo.trans_le hm)
  have h1 := ((hf m (by exact_mod_cast (by omega : 0 < m)) (isF32_nat (by omega))).2 _
    (isF32_next (k := k) (by omega))).1 (by
      have := lt_logb hlo hk
      have h2 := pow_neg_le (k := k) (j := 19) (by omega)
      push_cast
      linarith)
  have : (0 : ℚ) < 2 ^ (-19 : ℤ) := by positivity
  linarith

/-- **C108, up to 2^21 clients** for a correctly rounded logarithm. -/
theorem C108_nearest_partial {f : ℚ → ℚ} (hf : Spec.NearestLog2 f) {m : Nat} (hm : m ≤ 2 ^ 21) :
    ceilLog2F32 f m = Nat.clog 2 m := by
  have hF := nearest_faithful hf
  refine log2f_small hF (by omega) fun k hk hlo hhi => ?_
  have hk21 : k < 21 := (Nat.pow_lt_pow_iff_right (by omega : 1 < 2)).1 (hlo.trans_le hm)
  have hL := lt_logb hlo hk
  have h2 := pow_neg_le (k := k) (j := 20) (by omega)
  have hx : (0 : ℚ) < m := by exact_mod_cast (by omega : 0 < m)
  by_contra hc
  push Not at hc
  have hcR : (f m : ℝ) ≤ k := by exact_mod_cast hc
  have hy := isF32_next (k := k) (by omega)
  have hn := (hf m hx (isF32_nat (by omega))).2 _ hy
  have e19 : ((2 : ℝ) ^ (-19 : ℤ)) = 2 * 2 ^ (-20 : ℤ) := by norm_num
  have hp : (0 : ℝ) < 2 ^ (-20 : ℤ) := by positivity
  by_cases hle : (k : ℝ) + 2 ^ (-19 : ℤ) ≤ Real.logb 2 m
  · have := ((hF m hx (isF32_nat (by omega))).2 _ hy).1 (by push_cast; exact hle)
    have h19 : (0 : ℚ) < 2 ^ (-19 : ℤ) := by positivity
    linarith
  · push Not at hle
    push_cast at hn
    rw [abs_of_nonpos (by linarith), abs_of_nonneg (by linarith)] at hn
    linarith

/-- **C108 is false above 2^21 clients, correctly rounded logarithm.** Just above every power of two from 2^21 on the
tree has fewer leaves than there are clients. -/
theorem C108_false {f : ℚ → ℚ} (hf : Spec.NearestLog2 f) {k j : Nat} (hk : 21 ≤ k) (hk2 : k < 64)
    (hj : j ≤ 2 ^ (k - 21)) : ceilLog2F32 f (2 ^ k + j) = k := by
  obtain ⟨hlo, hhi, h32⟩ := ofNat_near hk hk2 hj
  unfold ceilLog2F32
  rw [if_neg (by positivity)]
  generalize F32.ofNat (2 ^ k + j) = x at *
  have hx : (0 : ℚ) < x := lt_of_lt_of_le (by positivity) hlo
  have hxR : (0 : ℝ) < x := by exact_mod_cast hx
  have hloR : (2 : ℝ) ^ k ≤ x := by exact_mod_cast hlo
  have hhiR : (x : ℝ) ≤ 2 ^ k * (1 + 2 ^ (-21 : ℤ)) := by
    have := (Rat.cast_le (K := ℝ)).2 hhi
    push_cast at this
    exact this
  have hL0 : (k : ℝ) ≤ Real.logb 2 x := by
    have := Real.logb_le_logb_of_le (b := 2) (by norm_num) (by positivity) hloR
    rwa [logb_pow_two] at this
  have hL1 : Real.logb 2 x < k + 2 ^ (-20 : ℤ) := by
    have := Real.logb_le_logb_of_le (b := 2) (by norm_num) hxR hhiR
    rw [logb_above (by positivity)] at this
    have h2 := logb_one_add_lt (t := 2 ^ (-21 : ℤ)) (by positivity)
    have e : (2 : ℝ) * 2 ^ (-21 : ℤ) = 2 ^ (-20 : ℤ) := by norm_num
    linarith
  have hk24 : Spec.IsF32 k := isF32_nat (by omega)
  obtain ⟨hr, hn⟩ := hf x hx h32
  have hge := ((nearest_faithful hf x hx h32).2 k hk24).1 (by push_cast; exact hL0)
  have hnk := hn k hk24
  have hle : f x ≤ k := by
    by_contra hc
    push Not at hc
    have hgap := isF32_gap hr (by omega) hc
    have hgapR : (k : ℝ) + 2 ^ (-19 : ℤ) ≤ f x := by
      have := (Rat.cast_le (K := ℝ)).2 hgap
      push_cast at this
      exact this
    have e19 : ((2 : ℝ) ^ (-19 : ℤ)) = 2 * 2 ^ (-20 : ℤ) := by norm_num
    have hp : (0 : ℝ) < 2 ^ (-20 : ℤ) := by positivity
    push_cast at hnk
    rw [abs_of_nonneg (by linarith), abs_of_nonpos (by linarith)] at hnk
    linarith
  exact ceil_of_bounds (by linarith) hle

/-- **C108 is false above 2^24 clients, any logarithm** that is exact where it can be: the conversion to `f32` already
loses the difference from the power of two. -/
theorem C108_false_any {f : ℚ → ℚ} (hf : Spec.FaithfulLog2 f) {k j : Nat} (hk : 24 ≤ k) (hk2 : k < 64)
    (hj : j ≤ 2 ^ (k - 24)) : ceilLog2F32 f (2 ^ k + j) = k := by
  have h32 := (ofNat_near (k := k) (j := j) (by omega) hk2
    (hj.trans (Nat.pow_le_pow_right (by omega) (by omega)))).2.2
  unfold ceilLog2F32
  rw [if_neg (by positivity)]
  rw [ofNat_lost hk hj] at h32 ⊢
  have hL : Real.logb 2 (((2 : ℚ) ^ k : ℚ) : ℝ) = k := by
    push_cast
    exact logb_pow_two k
  obtain ⟨a, b⟩ := (hf (2 ^ k) (by positivity) h32).2 k (isF32_nat (by omega))
  have e : f (2 ^ k) = k := le_antisymm (b (by rw [hL]; push_cast; rfl)) (a (by rw [hL]; push_cast; rfl))
  rw [e]
  simp

/-- Both kinds of logarithm exist, and these are numbers of clients for which the tree is too small. -/
example : ∃ f, Spec.NearestLog2 f ∧ Spec.FaithfulLog2 f ∧
    2 ^ ceilLog2F32 f 2097153 < 2097153 ∧ 2 ^ ceilLog2F32 f 16777217 < 16777217 ∧
    ceilLog2F32 f 2097152 = 21 ∧ ceilLog2F32 f 1000000 = 20 := by
  obtain ⟨f, hf⟩ := nearest_exists
  refine ⟨f, hf, nearest_faithful hf, ?_, ?_, ?_, ?_⟩
  · rw [show 2097153 = 2 ^ 21 + 1 by norm_num, C108_false hf (by omega) (by omega) (by norm_num)]
    norm_num
  · rw [show 16777217 = 2 ^ 24 + 1 by norm_num, C108_false_any (nearest_faithful hf) (by omega) (by omega) (by norm_num)]
    norm_num
  · rw [C108_nearest_partial hf (by norm_num), show 2097152 = 2 ^ 21 by norm_num, Nat.clog_pow _ _ (by omega)]
  · rw [C108_small_partial (nearest_faithful hf) (by norm_num)]
    exact le_antisymm (Nat.clog_le_of_le_pow (by norm_num)) ((Nat.lt_clog_iff_pow_lt (by omega)).2 (by norm_num))

/-! ### The clients that the tree misses -/

/-- **C108, false: the missed clients are not checked.** If every client whose digests differ comes after the first
`2 ^ K` included clients, where `K` is the computed logarithm, the level completes, nobody is excluded, and the counts
include the cheaters. -/
theorem C108_false_unchecked {n d m K : Nat} {paths : List (List Bool)} {kcs : Pair2 P} {cfg : Config}
    (h : Spec.LevelState P n d m paths kcs) (c0 c1 : ServerCfg) (num : Nat) (hn : cfg.histBuckets = n)
    (hne : paths ≠ []) (hm : m < d) (hi : ∃ r ∈ kcs.1.reportShares, r.1 = true)
    (hK : P.ceilLog2 (Spec.included kcs.1.reportShares).length = K)
    (hdis : ∀ c, Spec.disagree P n paths kcs.1.reportShares kcs.2.reportShares c = true →
      2 ^ K ≤ Spec.rank kcs.1.reportShares c) :
    ∃ kcs', runLevel c0 c1 cfg kcs num = .ok kcs' ∧
      kcs'.1.reportShares = kcs.1.reportShares ∧ kcs'.2.reportShares = kcs.2.reportShares ∧
      Spec.LevelState P n d (m + 1) (Spec.heavyChildren P n (max 1 cfg.threshold)
        kcs.1.reportShares kcs.2.reportShares paths) kcs' := by
  obtain ⟨hk0, hk1⟩ := LevelState.reach h hm
  have hl0 := digests_length (P := P) (n := n) (first := true) (paths := paths) hk0
  have hl1 := digests_length (P := P) (n := n) (first := false) (paths := paths) hk1
  have hinc : Spec.included kcs.1.reportShares ≠ [] := by
    rw [← List.length_pos_iff, included_count, List.countP_pos_iff]
    exact hi
  obtain ⟨kcs', e, hB⟩ := runLevel_sameRoot (LevelState.both h) c0 c1 cfg num hn hne hm hk0 hk1 h.flags hinc (by
    refine merkleRoots_take (K := K) (by rw [hl0]; exact hK) (by rw [hl0, hl1, included_length_congr h.flags]) ?_ ?_
    · intro p hp
      by_contra hd
      obtain ⟨c, hc, hr⟩ := (differAt_iff (P := P) (n := n) (paths := paths) hk0 hk1 h.flags p).1
        (by simpa [Spec.differAt] using hd)
      have := hdis c hc
      omega
    · rw [← List.length_pos_iff, hl0]
      exact List.length_pos_iff.2 hinc)
  exact ⟨kcs', e, hB.fst.rep, hB.snd.rep, LevelState.of_both hB h.flags h.keys⟩

/-- **C108, false: a run of the code.** With the logarithm of the code, correctly rounded, and `2 ^ k + j` clients, all
included: the last `j` may cheat without being noticed. -/
theorem C108_false_cheaters {f : ℚ → ℚ} (hf : Spec.NearestLog2 f) (hP : P.ceilLog2 = ceilLog2F32 f)
    {n d m k j : Nat} {paths : List (List Bool)} {kcs : Pair2 P} {cfg : Config}
    (h : Spec.LevelState P n d m paths kcs) (c0 c1 : ServerCfg) (num : Nat) (hn : cfg.histBuckets = n)
    (hne : paths ≠ []) (hm : m < d) (hall : ∀ r ∈ kcs.1.reportShares, r.1 = true)
    (hlen : kcs.1.reportShares.length = 2 ^ k + j) (hk : 21 ≤ k) (hk2 : k < 64) (hj : j ≤ 2 ^ (k - 21))
    (hhonest : ∀ c < 2 ^ k, Spec.disagree P n paths kcs.1.reportShares kcs.2.reportShares c = false) :
    ∃ kcs', runLevel c0 c1 cfg kcs num = .ok kcs' ∧
      kcs'.1.reportShares = kcs.1.reportShares ∧ kcs'.2.reportShares = kcs.2.reportShares ∧
      Spec.LevelState P n d (m + 1) (Spec.heavyChildren P n (max 1 cfg.threshold)
        kcs.1.reportShares kcs.2.reportShares paths) kcs' := by
  have hinc : (Spec.included kcs.1.reportShares).length = kcs.1.reportShares.length := by
    rw [included_count, List.countP_eq_length]
    exact hall
  refine C108_false_unchecked (K := k) h c0 c1 num hn hne hm ?_ ?_ ?_
  · have : 0 < kcs.1.reportShares.length := by rw [hlen]; positivity
    obtain ⟨r, hr⟩ := List.exists_mem_of_length_pos this
    exact ⟨r, hr, hall r hr⟩
  · rw [hinc, hlen, hP]
    exact C108_false hf hk hk2 hj
  · intro c hc
    have hlt := disagree_lt hc
    rw [rank_all hall hlt.le]
    by_contra hcl
    rw [hhonest c (by omega)] at hc
    cases hc

/-! ### A population of 2^21 + 1 clients -/

/-- The toy instance with the logarithm of the code, correctly rounded. -/
noncomputable def bigToy : Prims := { mixToy with ceilLog2 := ceilLog2F32 (Classical.choose nearest_exists) }

/-- The report of the honest client (on both servers) and that of the cheater. -/
def bigPair (cheat second : Bool) : Option ReportShare :=
  ((mixR [true] (if cheat then [0] else []) second)[0]?).map Prod.snd

theorem getElem?_replicate_append {α : Type} (N : Nat) (a b : α) (c : Nat) :
    (List.replicate N a ++ [b])[c]? = if c < N then some a else if c = N then some b else none := by
  rw [List.getElem?_append, List.length_replicate]
  split
  · rename_i h
    rw [List.getElem?_replicate, if_pos h]
  · by_cases h : c = N
    · subst h; simp
    · rw [if_neg h, List.getElem?_eq_none (by simp; omega)]

theorem big_states (N : Nat) : ∃ (a0 a1 b0 b1 : ReportShare) (kcs : Pair2 bigToy),
    bigPair false false = some a0 ∧ bigPair false true = some a1 ∧ bigPair true false = some b0 ∧
    bigPair true true = some b1 ∧
    kcs.1.reportShares = List.replicate N (true, a0) ++ [(true, b0)] ∧
    kcs.2.reportShares = List.replicate N (true, a1) ++ [(true, b1)] ∧
    Spec.LevelState bigToy 2 2 0 [[]] kcs := by
  have key : ∀ c s, ∃ r, bigPair c s = some r ∧ ∃ key, Spec.keyOf r = some key ∧
      key.cs.length = key.corWords.length ∧ 2 ≤ key.corWords.length := by
    intro c s
    have h : twoLevels (mixR [true] (if c then [0] else []) s) = true ∧
        (mixR [true] (if c then [0] else []) s).length = 1 := by
      cases c <;> cases s <;> decide +kernel
    obtain ⟨h1, h2⟩ := h
    obtain ⟨x, hx⟩ := List.length_eq_one_iff.1 h2
    unfold bigPair
    rw [hx] at h1 ⊢
    exact ⟨x.2, rfl, twoLevels_iff h1 x (by simp)⟩
  obtain ⟨a0, ea0, ka0⟩ := key false false
  obtain ⟨a1, ea1, ka1⟩ := key false true
  obtain ⟨b0, eb0, kb0⟩ := key true false
  obtain ⟨b1, eb1, kb1⟩ := key true true
  have hk : ∀ r ∈ (List.replicate N (true, a0) ++ [(true, b0)]) ++ (List.replicate N (true, a1) ++ [(true, b1)]),
      ∃ key, Spec.keyOf r.2 = some key ∧ key.cs.length = key.corWords.length ∧ 2 ≤ key.corWords.length := by
    intro r hr
    simp only [List.mem_append, List.mem_replicate, List.mem_singleton] at hr
    rcases hr with (⟨-, rfl⟩ | rfl) | (⟨-, rfl⟩ | rfl) <;> assumption
  obtain ⟨k0, e0⟩ := treeInit_progress (kc := { KeyCollection.new bigToy 2 0 (some 2) Block.zero with
    reportShares := List.replicate N (true, a0) ++ [(true, b0)] }) (fun br hbr => by
      obtain ⟨key, a, b, c⟩ := hk br (List.mem_append_left _ hbr)
      exact ⟨key, a, b, by omega⟩)
  obtain ⟨k1, e1⟩ := treeInit_progress (kc := { KeyCollection.new bigToy 2 1 (some 2) Block.zero with
    reportShares := List.replicate N (true, a1) ++ [(true, b1)] }) (fun br hbr => by
      obtain ⟨key, a, b, c⟩ := hk br (List.mem_append_right _ hbr)
      exact ⟨key, a, b, by omega⟩)
  exact ⟨a0, a1, b0, b1, _, ea0, ea1, eb0, eb1, rfl, rfl,
    C30_start (kcs := ({ KeyCollection.new bigToy 2 0 (some 2) Block.zero with
      reportShares := List.replicate N (true, a0) ++ [(true, b0)] },
      { KeyCollection.new bigToy 2 1 (some 2) Block.zero with
        reportShares := List.replicate N (true, a1) ++ [(true, b1)] })) (kcs' := (k0, k1))
      (by unfold driverTreeInit; rw [e0, ok_bind, e1, ok_bind]) ⟨rfl, rfl⟩
      ⟨rfl, by show (1 : Int) ≠ 0; decide⟩ ⟨rfl, rfl⟩ rfl rfl (by simp) hk⟩

/-- The digests of the honest client agree, those of the cheater differ. -/
theorem big_digests : ((bigPair false false).bind Spec.keyOf).map (Spec.digestAt bigToy 2 true [[]]) =
      ((bigPair false true).bind Spec.keyOf).map (Spec.digestAt bigToy 2 false [[]]) ∧
    ((bigPair true false).bind Spec.keyOf).map (Spec.digestAt bigToy 2 true [[]]) ≠
      ((bigPair true true).bind Spec.keyOf).map (Spec.digestAt bigToy 2 false [[]]) := by
  decide +kernel

/-- The hypotheses of `C108_false_cheaters`: 2^21 honest clients and a last one who cheats; the cheater stays. -/
example : ∃ kcs kcs' : Pair2 bigToy, Spec.LevelState bigToy 2 2 0 [[]] kcs ∧
    Spec.disagree bigToy 2 [[]] kcs.1.reportShares kcs.2.reportShares (2 ^ 21) = true ∧
    runLevel (toyCfg 0 (some 2) .debug) (toyCfg 1 (some 2) .debug) ⟨some 2, 2, 1, 2, 1, 2⟩ kcs (2 ^ 21 + 1)
      = .ok kcs' ∧
    kcs'.1.reportShares[2 ^ 21]?.map Prod.fst = some true := by
  obtain ⟨N, hN⟩ : ∃ N, N = 2 ^ 21 := ⟨_, rfl⟩
  rw [← hN]
  obtain ⟨a0, a1, b0, b1, kcs, ea0, ea1, eb0, eb1, r0, r1, hL⟩ := big_states N
  obtain ⟨hh, hc⟩ := big_digests
  rw [ea0, ea1] at hh
  rw [eb0, eb1] at hc
  simp only [Option.bind_some] at hh hc
  obtain ⟨kcs', e, q0, -, -⟩ := C108_false_cheaters (Classical.choose_spec nearest_exists) (P := bigToy) rfl hL
    (toyCfg 0 (some 2) .debug) (toyCfg 1 (some 2) .debug) (N + 1) (cfg := ⟨some 2, 2, 1, 2, 1, 2⟩) rfl (by simp)
    (by omega) (k := 21) (j := 1)
    (by
      intro r hr
      rw [r0] at hr
      simp only [List.mem_append, List.mem_replicate, List.mem_singleton] at hr
      rcases hr with ⟨-, rfl⟩ | rfl <;> rfl)
    (by rw [r0, ← hN]; simp) le_rfl (by omega) (by norm_num) (by
      intro c hcl
      rw [← hN] at hcl
      unfold Spec.disagree
      rw [r0, r1, getElem?_replicate_append, getElem?_replicate_append, if_pos hcl, if_pos hcl]
      simpa using hh)
  refine ⟨kcs, kcs', hL, ?_, e, ?_⟩
  · unfold Spec.disagree
    rw [r0, r1, getElem?_replicate_append, getElem?_replicate_append]
    simpa using hc
  · rw [q0, r0, getElem?_replicate_append]
    simp

end Mastic
