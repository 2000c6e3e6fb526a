import Verif.Lemmas.Engine
import Verif.Lemmas.Flp
import Verif.Lemmas.Abm

/-!
# Honest reports pass all checks of the crawl, and what they add up to
-/

namespace Mastic

variable {P : Prims}

theorem recon_getD {n d : Nat} {k0 k1 : VidpfKey} {f : List Bool → List Field128}
    (hv : ∀ p, p ≠ [] → p.length ≤ d → Spec.reconAt P k0 k1 n p = some (f p)) {p : List Bool}
    (hne : p ≠ []) (hl : p.length ≤ d) (i : Nat) :
    ((Spec.valueAt P k0 n p).getD []).getD i 0 + ((Spec.valueAt P k1 n p).getD []).getD i 0
      = (f p).getD i 0 := by
  have h := hv p hne hl
  unfold Spec.reconAt at h
  cases h0 : Spec.valueAt P k0 n p with
  | none => rw [h0] at h; cases h
  | some a =>
    cases h1 : Spec.valueAt P k1 n p with
    | none => rw [h0, h1] at h; cases h
    | some b =>
      rw [h0, h1] at h
      simp only [Option.bind_eq_bind, Option.bind_some, Option.some.injEq] at h
      rw [← h, Option.getD_some, Option.getD_some,
        addShares_getD (valueAt_length hne h0) (valueAt_length hne h1)]

/-- The root checks of the two servers agree iff the counters below the root add up to 1. -/
theorem prefixCheck_root {n d : Nat} {k0 k1 : VidpfKey} {f : List Bool → List Field128}
    (hv : ∀ p, p ≠ [] → p.length ≤ d → Spec.reconAt P k0 k1 n p = some (f p)) (hd : 1 ≤ d) :
    Spec.prefixCheck P n true k0 [] = Spec.prefixCheck P n false k1 [] ↔
      (f [false]).getD n 0 + (f [true]).getD n 0 = 1 := by
  have hF := recon_getD hv (p := [false]) (by simp) (by simpa using hd) n
  have hT := recon_getD hv (p := [true]) (by simp) (by simpa using hd) n
  simp only [Spec.prefixCheck, if_true, List.cons.injEq, and_true, Bool.false_eq_true, if_false]
  rw [← hF, ← hT]
  constructor
  · intro h; linear_combination -h
  · intro h; linear_combination -h

theorem prefixCheck_inner {n d : Nat} {k0 k1 : VidpfKey} {f : List Bool → List Field128}
    (hv : ∀ p, p ≠ [] → p.length ≤ d → Spec.reconAt P k0 k1 n p = some (f p)) {p : List Bool}
    (hne : p ≠ []) (hd : p.length + 1 ≤ d) :
    Spec.prefixCheck P n true k0 p = Spec.prefixCheck P n false k1 p ↔
      ∀ i < n, (f p).getD i 0 = (f (p ++ [false])).getD i 0 + (f (p ++ [true])).getD i 0 := by
  simp only [Spec.prefixCheck, if_neg hne, if_true, Bool.false_eq_true, if_false]
  rw [List.map_inj_left]
  simp only [List.mem_range]
  refine forall_congr' fun i => forall_congr' fun _ => ?_
  have h0 := recon_getD hv hne (by omega) i
  have hF := recon_getD hv (p := p ++ [false]) (by simp) (by simpa using hd) i
  have hT := recon_getD hv (p := p ++ [true]) (by simp) (by simpa using hd) i
  rw [← h0, ← hF, ← hT]
  constructor
  · intro h; linear_combination h
  · intro h; linear_combination h

theorem quietPair_of {n d : Nat} {k0 k1 : VidpfKey}
    (hp : ∀ p, p ≠ [] → p.length ≤ d → Spec.proofAt P k0 n p = Spec.proofAt P k1 n p)
    (hc : ∀ p, p.length + 1 < d →
      Spec.prefixCheck P n true k0 p = Spec.prefixCheck P n false k1 p) :
    Spec.QuietPair P n d k0 k1 := by
  have hpr : ∀ paths : List (List Bool), (∀ p ∈ paths, p.length + 1 ≤ d) →
      Spec.proofsAt P n k0 paths = Spec.proofsAt P n k1 paths := by
    intro paths hl
    unfold Spec.proofsAt
    congr 1
    refine List.flatMap_congr fun p hp' => ?_
    rw [hp _ (by simp) (by simpa using hl p hp'), hp _ (by simp) (by simpa using hl p hp')]
  refine ⟨fun m paths hm _ hl => ?_, fun paths _ hl => hpr paths fun p hp' => (hl p hp').le⟩
  unfold Spec.digestAt
  rw [hpr paths fun p hp' => by rw [hl p hp']; omega]
  congr 4
  exact List.flatMap_congr fun p hp' => hc p (by rw [hl p hp']; omega)

theorem honest_recon (rs : Block × Block) (alpha : List Bool) (beta : List Field128) (p : List Bool)
    (hne : p ≠ []) (hlen : p.length ≤ alpha.length) :
    Spec.reconAt P (VidpfKey.gen P rs alpha beta).1 (VidpfKey.gen P rs alpha beta).2 beta.length p
      = some (Spec.pointValue alpha beta p) := by
  obtain ⟨v0, v1, h0, h1, hs⟩ := honest_values P rs alpha beta p hne hlen
  unfold Spec.reconAt
  rw [h0, h1, ← hs]; rfl

theorem honest_proofs (rs : Block × Block) (alpha : List Bool) (beta : List Field128) (p : List Bool)
    (hlen : p.length ≤ alpha.length) :
    Spec.proofAt P (VidpfKey.gen P rs alpha beta).1 beta.length p
      = Spec.proofAt P (VidpfKey.gen P rs alpha beta).2 beta.length p := by
  obtain ⟨r0, r1, e0, e1, hp, -⟩ := honest_evalPath P rs alpha beta p hlen
  unfold Spec.proofAt
  rw [e0, e1]
  exact congrArg some hp

theorem pointValue_split (alpha : List Bool) (beta : List Field128) (p : List Bool)
    (h : p.length < alpha.length) (i : Nat) :
    (Spec.pointValue alpha beta p).getD i 0
      = (Spec.pointValue alpha beta (p ++ [false])).getD i 0
        + (Spec.pointValue alpha beta (p ++ [true])).getD i 0 := by
  rw [pointValue_children alpha beta p h, addShares_getD (pointValue_length _ _ _)
    (pointValue_length _ _ _)]

/-- **Honest keys are quiet.** -/
theorem honest_quiet (rs : Block × Block) (alpha : List Bool) (beta : List Field128) :
    Spec.QuietPair P beta.length alpha.length (VidpfKey.gen P rs alpha beta).1
      (VidpfKey.gen P rs alpha beta).2 := by
  refine quietPair_of (fun p _ hl => honest_proofs rs alpha beta p hl) fun p hl => ?_
  have hv := honest_recon (P := P) rs alpha beta
  by_cases hne : p = []
  · subst hne
    rw [prefixCheck_root hv (by omega), ← List.nil_append [false], ← List.nil_append [true],
      ← pointValue_split alpha beta [] (by simpa using (by omega : 0 < alpha.length))]
    simp [Spec.pointValue]
  · rw [prefixCheck_inner hv hne (by omega)]
    intro i _
    exact pointValue_split alpha beta p (by omega) i

/-! ### What honest reports add up to -/

/-- `k` shares the point function of client `c` on `d` levels. -/
def PairOf (P : Prims) (n d : Nat) (k : VidpfKey × VidpfKey) (c : List Bool × Nat) : Prop :=
  ∃ beta, encodeMeasurement n c.2 = some beta ∧ ∀ p, p ≠ [] → p.length ≤ d →
    Spec.reconAt P k.1 k.2 n p = some (Spec.pointValue c.1 beta p)

theorem pointValue_count {n bucket : Nat} {alpha p : List Bool} {beta : List Field128}
    (hb : encodeMeasurement n bucket = some beta) :
    (Spec.pointValue alpha beta p)[n]? = some (if p.isPrefixOf alpha then (1 : Field128) else 0) := by
  obtain ⟨hl, -⟩ := encodeMeasurement_length hb
  unfold Spec.pointValue
  by_cases h : p <+: alpha
  · rw [if_pos h, if_pos (by simpa using h), List.getElem?_append_right (by omega), hl]
    simp
  · rw [if_neg h, if_neg (by simpa using h), List.getElem?_replicate, if_pos (by omega)]

theorem tally_clients {n d : Nat} {pairs : List (VidpfKey × VidpfKey)}
    {clients : List (List Bool × Nat)} (h : List.Forall₂ (PairOf P n d) pairs clients) {p : List Bool}
    (hne : p ≠ []) (hl : p.length ≤ d) :
    Spec.tally P n pairs p = Spec.histogram n ((Spec.holders clients p).map Prod.snd)
      ++ [(((Spec.holders clients p).length : Nat) : Field128)] := by
  have hmap : ∃ vs : List (List Field128),
      pairs.map (fun k => (Spec.reconAt P k.1 k.2 n p).getD []) = vs ∧
      List.Forall₂ (fun (v : List Field128) (c : List Bool × Nat) => ∃ beta,
        encodeMeasurement n c.2 = some beta ∧ v = Spec.pointValue c.1 beta p) vs clients := by
    refine ⟨_, rfl, ?_⟩
    induction h with
    | nil => exact .nil
    | cons hx _ ih =>
      obtain ⟨beta, hb, hv⟩ := hx
      exact .cons ⟨beta, hb, by simp only [hv p hne hl, Option.getD_some]⟩ ih
  obtain ⟨vs, hvs, hF⟩ := hmap
  have hlen : ∀ v ∈ vs, v.length = n + 1 := by
    clear hvs h
    induction hF with
    | nil => intro v hv; cases hv
    | cons hx _ ih =>
      intro v hv
      rcases List.mem_cons.1 hv with rfl | hv
      · obtain ⟨beta, hb, rfl⟩ := hx
        rw [pointValue_length, (encodeMeasurement_length hb).1]
      · exact ih v hv
  obtain ⟨hL, hG⟩ := sumVecs_spec hlen
  unfold Spec.tally
  rw [hvs]
  refine list_ext_getD hL (by simp [Spec.histogram]) fun i => ?_
  rw [hG]
  rcases Nat.lt_trichotomy i n with hi | hi | hi
  · have e : vs.map (fun v => v.getD i 0)
        = clients.map fun c => if p.isPrefixOf c.1 && c.2 == i then (1 : Field128) else 0 := by
      clear hvs hlen hL hG h
      induction hF with
      | nil => rfl
      | cons hx _ ih =>
        obtain ⟨beta, hb, rfl⟩ := hx
        rw [List.map_cons, List.map_cons, ih, List.getD_eq_getElem?_getD, pointValue_cell hb hi,
          Option.getD_some]
    rw [e, sum_ite_countP, List.getD_append _ _ _ _ (by simpa [Spec.histogram] using hi)]
    unfold Spec.histogram Spec.holders
    rw [List.getD_eq_getElem _ _ (by simpa using hi)]
    simp only [List.getElem_map, List.getElem_range, List.countP_map, List.countP_filter]
    congr 2
    funext c
    simp [Bool.and_comm]
  · subst hi
    have e : vs.map (fun v => v.getD i 0)
        = clients.map fun c => if p.isPrefixOf c.1 then (1 : Field128) else 0 := by
      clear hvs hlen hL hG h
      induction hF with
      | nil => rfl
      | cons hx _ ih =>
        obtain ⟨beta, hb, rfl⟩ := hx
        rw [List.map_cons, List.map_cons, ih, List.getD_eq_getElem?_getD, pointValue_count hb,
          Option.getD_some]
    rw [e, sum_ite_countP (fun c : List Bool × Nat => p.isPrefixOf c.1),
      List.getD_append_right _ _ _ _ (by simp [Spec.histogram]), List.countP_eq_length_filter]
    simp [Spec.histogram, Spec.holders]
  · rw [List.getD_eq_default _ _ (by simp [Spec.histogram]; omega)]
    have e : vs.map (fun v => v.getD i 0) = vs.map fun _ => (0 : Field128) :=
      List.map_congr_left fun v hv => List.getD_eq_default _ _ (by rw [hlen v hv]; omega)
    rw [e]; simp

theorem countAt_clients {n d : Nat} {pairs : List (VidpfKey × VidpfKey)}
    {clients : List (List Bool × Nat)} (h : List.Forall₂ (PairOf P n d) pairs clients)
    (hc : clients.length < 2 ^ 64) {p : List Bool} (hne : p ≠ []) (hl : p.length ≤ d) :
    Spec.countAt P n pairs p = (Spec.holders clients p).length := by
  have hle : (Spec.holders clients p).length ≤ clients.length := List.length_filter_le _ _
  unfold Spec.countAt
  rw [tally_clients h hne hl, List.getD_append_right _ _ _ _ (by simp [Spec.histogram])]
  simp only [Spec.histogram, List.length_map, List.length_range, Nat.sub_self, List.getD_cons_zero]
  have hm : 2 ^ 64 < fieldModulus := by decide
  rw [ZMod.val_natCast, Nat.mod_eq_of_lt (a := (Spec.holders clients p).length) (by omega),
    Nat.mod_eq_of_lt (by omega)]

theorem holders_mono (clients : List (List Bool × Nat)) {q p : List Bool} (h : q <+: p) :
    (Spec.holders clients p).length ≤ (Spec.holders clients q).length := by
  unfold Spec.holders
  refine (List.monotone_filter_right clients fun c hc => ?_).length_le
  simp only [List.isPrefixOf_iff_prefix] at hc ⊢
  exact h.trans hc

theorem heavy_clients {n d T : Nat} {pairs : List (VidpfKey × VidpfKey)}
    {clients : List (List Bool × Nat)} (h : List.Forall₂ (PairOf P n d) pairs clients)
    (hc : clients.length < 2 ^ 64) {p : List Bool} (hne : p ≠ []) (hl : p.length ≤ d) :
    Spec.heavy P n T pairs p = decide (T ≤ (Spec.holders clients p).length) := by
  rw [Bool.eq_iff_iff, decide_eq_true_eq]
  unfold Spec.heavy
  simp only [List.all_eq_true, List.mem_inits, Bool.or_eq_true, List.isEmpty_iff, decide_eq_true_eq]
  constructor
  · intro hall
    rcases hall p List.prefix_rfl with he | he
    · exact absurd he hne
    · rwa [countAt_clients h hc hne hl] at he
  · intro hT q hq
    by_cases hq0 : q = []
    · exact .inl hq0
    · rw [countAt_clients h hc hq0 (hq.length_le.trans hl)]
      exact .inr (hT.trans (holders_mono clients hq))

/-- At full length, "starts with" is "equals". -/
theorem holders_full {d : Nat} {clients : List (List Bool × Nat)} (hd : ∀ c ∈ clients, c.1.length = d)
    {p : List Bool} (hp : p.length = d) :
    Spec.holders clients p = clients.filter fun c => c.1 == p := by
  unfold Spec.holders
  refine List.filter_congr fun c hc => ?_
  rw [Bool.eq_iff_iff, List.isPrefixOf_iff_prefix, beq_iff_eq]
  constructor
  · intro h; exact (h.eq_of_length (by rw [hp, hd c hc])).symm
  · intro h; rw [h]

theorem results_clients {n d T : Nat} {pairs : List (VidpfKey × VidpfKey)}
    {clients : List (List Bool × Nat)} (h : List.Forall₂ (PairOf P n d) pairs clients) (hd1 : 1 ≤ d)
    (hc : clients.length < 2 ^ 64) (hd : ∀ c ∈ clients, c.1.length = d) :
    (resultsOf P n pairs (Spec.heavyPaths P n T pairs d)).map (fun r => (r.path, r.value))
      = Spec.heavyHitters n T d clients := by
  have hne : ∀ p ∈ Spec.allPaths d, p ≠ [] := by
    intro p hp he
    have := mem_allPaths.1 hp
    rw [he] at this
    simp at this
    omega
  unfold resultsOf Spec.heavyPaths Spec.heavyHitters
  rw [List.map_map]
  have hf : (Spec.allPaths d).filter (Spec.heavy P n T pairs)
      = (Spec.allPaths d).filter fun s => decide (T ≤ clients.countP fun c => c.1 == s) := by
    refine List.filter_congr fun p hp => ?_
    rw [heavy_clients h hc (hne p hp) (mem_allPaths.1 hp).le, holders_full hd (mem_allPaths.1 hp),
      List.countP_eq_length_filter]
  rw [hf]
  refine List.map_congr_left fun p hp => ?_
  have hp' := (List.mem_filter.1 hp).1
  simp only [Function.comp]
  rw [tally_clients h (hne p hp') (mem_allPaths.1 hp').le, holders_full hd (mem_allPaths.1 hp'),
    List.countP_eq_length_filter]

end Mastic
