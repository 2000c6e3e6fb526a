import Verif.Lemmas.Whh
import Verif.Lemmas.Search

/-!
# Lemmas for C84
-/

namespace Mastic

variable {P : Prims}

/-- Included reports whose VIDPF keys are those of honest reports; proof shares and joint randomness are arbitrary. -/
inductive Keyed (P : Prims) (n d : Nat) : List (List Bool × Nat) → List (Bool × ReportShare) →
    List (Bool × ReportShare) → Prop
  | nil : Keyed P n d [] [] []
  | cons {c s0 s1 t0 t1 cs r0 r1} : Spec.HonestPair P n c.1 c.2 t0 t1 → Spec.keyOf s0 = Spec.keyOf t0 →
      Spec.keyOf s1 = Spec.keyOf t1 → c.1.length = d →
      Keyed P n d cs r0 r1 → Keyed P n d (c :: cs) ((true, s0) :: r0) ((true, s1) :: r1)

theorem Keyed.facts {n d : Nat} {cs : List (List Bool × Nat)} {r0 r1 : List (Bool × ReportShare)}
    (h : Keyed P n d cs r0 r1) :
    Spec.QuietReports P n d r0 r1 ∧ (∀ br ∈ r0, Spec.WellFormed d br.2) ∧
      (∀ br ∈ r1, Spec.WellFormed d br.2) ∧ List.Forall₂ (PairOf P n d) (Spec.keyPairs r0 r1) cs := by
  induction h with
  | nil => exact ⟨⟨rfl, by simp⟩, by simp, by simp, .nil⟩
  | @cons c s0 s1 t0 t1 cs r0 r1 hh he0 he1 hd _ ih =>
    obtain ⟨⟨i1, i2⟩, i3, i4, i5⟩ := ih
    obtain ⟨k0, k1, e0, e1, q, pr, ⟨k0', w0, w0'⟩, ⟨k1', w1, w1'⟩, -⟩ := honestPair_facts hh
    rw [hd] at q pr w0' w1'
    rw [← he0] at e0 w0
    rw [← he1] at e1 w1
    refine ⟨⟨by simp [i1], ?_⟩, ?_, ?_, ?_⟩
    · rintro (_ | i) t0 t1 h0 h1
      · cases h0; cases h1; exact ⟨k0, k1, e0, e1, q⟩
      · exact i2 i t0 t1 (by simpa using h0) (by simpa using h1)
    · intro br hbr
      rcases List.mem_cons.1 hbr with rfl | hbr
      · exact ⟨k0', w0, w0'⟩
      · exact i3 br hbr
    · intro br hbr
      rcases List.mem_cons.1 hbr with rfl | hbr
      · exact ⟨k1', w1, w1'⟩
      · exact i4 br hbr
    · have : Spec.keyPairs ((true, s0) :: r0) ((true, s1) :: r1) = (k0, k1) :: Spec.keyPairs r0 r1 := by
        simp [Spec.keyPairs, e0, e1]
      rw [this]
      exact .cons pr i5

theorem keyed_of {n d : Nat} : ∀ {cs : List (List Bool × Nat)} {sh : List (ReportShare × ReportShare)},
    sh.length = cs.length →
    (∀ (i : Nat) (c : List Bool × Nat) (s : ReportShare × ReportShare), cs[i]? = some c → sh[i]? = some s →
      c.1.length = d ∧ ∃ t0 t1, Spec.HonestPair P n c.1 c.2 t0 t1 ∧
        Spec.keyOf s.1 = Spec.keyOf t0 ∧ Spec.keyOf s.2 = Spec.keyOf t1) →
    Keyed P n d cs (sh.map fun s => (true, s.1)) (sh.map fun s => (true, s.2))
  | [], [], _, _ => .nil
  | c :: cs, [], h, _ => by simp at h
  | [], _ :: _, h, _ => by simp at h
  | c :: cs, s :: sh, h, hk => by
    obtain ⟨hd, t0, t1, hh, e0, e1⟩ := hk 0 c s rfl rfl
    exact .cons hh e0 e1 hd (keyed_of (by simpa using h) fun i c s hc hs =>
      hk (i + 1) c s (by simpa using hc) (by simpa using hs))

/-- With nobody included, the first crawl of a level panics. -/
theorem runLevel_nobody {n d m : Nat} {r0 r1 : List (Bool × ReportShare)} {paths : List (List Bool)}
    {kcs : Pair2 P} (h : Both n d m r0 r1 paths kcs) (c0 c1 : ServerCfg) (cfg : Config) (num : Nat)
    (hne : paths ≠ []) (hm : m < d) (hk0 : KeysReach m r0) (hnobody : ∀ r ∈ r0, r.1 = false) :
    runLevel c0 c1 cfg kcs num = .error .index := by
  have hd : Spec.digests P n true paths r0 = [] := by
    rw [← List.length_eq_zero_iff, digests_length hk0, included_count, List.countP_eq_zero]
    intro r hr
    simp [hnobody r hr]
  have herr : crawlBoth c0 c1 kcs ⟨1, [], false⟩ = .error .index :=
    crawlBoth_error (ks := kcs) (req := ⟨1, [], false⟩) rfl h c0 c1 hne hm hk0 (by
      rw [hd]
      exact merkleRoots_first_empty)
  unfold runLevel searchLevel
  rw [show num + 3 = (num + 2) + 1 from rfl, runLevelLoop, herr, error_bind, error_bind]

/-- A report share with an empty key, for server 1. -/
theorem evalBit_no_bits {key : VidpfKey} (hk : key.corWords = []) (hi : key.keyIdx = true) (dir : Bool)
    (bitStr : List Byte) (n : Nat) : key.evalBit P key.evalInit dir bitStr n = .error .index := by
  unfold VidpfKey.evalBit VidpfKey.correctSeed
  simp [VidpfKey.evalInit, hi, hk, idx, error_bind]

end Mastic
