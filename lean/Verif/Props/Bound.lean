import Verif.Props.Weights
import Verif.Props.Tree
import Verif.Props.Driver
import Verif.Spec.Bound

/-!
# What holds of properties that are false as stated: C07, C34, C35, C52
-/

namespace Mastic

variable {P : Prims}

/-! ## C07 -/

/-- **C07 (partial).**  The string is visible through the correction words and proof corrections only: clients with the same weight and
the same randomness but any two strings send the same nonce, root seeds, proof shares and joint-randomness parts.
(Missing: the correction words show the string, `C07_false_alpha_recoverable`.) -/
theorem C07_outside_words_partial {n bucket : Nat} {alpha alpha' : List Bool} {r : ClientRand} {nonce : Block}
    {ks : VidpfKey × VidpfKey} {ps : List Field128 × List Field128} {jr : Block × Block} {a : List Bool}
    (h : genMasticReport P n alpha bucket r = .ok (.mastic nonce ks ps jr a)) :
    ∃ ks' : VidpfKey × VidpfKey, genMasticReport P n alpha' bucket r = .ok (.mastic nonce ks' ps jr alpha') ∧
      ks'.1.rootSeed = ks.1.rootSeed ∧ ks'.2.rootSeed = ks.2.rootSeed ∧
      ks'.1.keyIdx = ks.1.keyIdx ∧ ks'.2.keyIdx = ks.2.keyIdx := by
  unfold genMasticReport at h ⊢
  obtain ⟨beta, hb, h⟩ := bind_eq_ok.1 h
  obtain ⟨proof, hp, h⟩ := bind_eq_ok.1 h
  cases h
  rw [hb, ok_bind]
  exact ⟨VidpfKey.gen P r.rootSeeds alpha' beta, by
    have : P.flpProve n beta r.proveRand (P.xofField
        (clientJointRandParts P r.nonce (VidpfKey.gen P r.rootSeeds alpha' beta).1
          (VidpfKey.gen P r.rootSeeds alpha' beta).2).1
        (clientJointRandParts P r.nonce (VidpfKey.gen P r.rootSeeds alpha' beta).1
          (VidpfKey.gen P r.rootSeeds alpha' beta).2).2.toList (P.jointRandLen n)) = some proof :=
      unwrapO_eq_ok.1 hp
    dsimp only
    rw [this]
    rfl, rfl, rfl, rfl, rfl⟩

/-- A toy client: strings `10` and `01`. -/
example : ∃ ks : VidpfKey × VidpfKey, ∃ ps jr,
    genMasticReport toy 2 [true, false] 1 (toyRand 0) = .ok (.mastic (toyRand 0).nonce ks ps jr [true, false]) := by
  exact ⟨_, _, _, rfl⟩

/-! ## C34 -/

theorem low64_diff {a b : Field128} (h : Spec.low64 a = Spec.low64 b) :
    1 + (b - a) = 0 ∨ Spec.low64 (1 + (b - a)) = 1 ∨ Spec.low64 (1 + (b - a)) = 2 := by
  have hp : fieldModulus % 2 ^ 64 = 1 := by decide
  have hp' : 2 < fieldModulus := by decide
  have ha := ZMod.val_lt a
  have hb := ZMod.val_lt b
  unfold Spec.low64 at h ⊢
  have hx : (b - a).val % 2 ^ 64 = 0 ∨ (b - a).val % 2 ^ 64 = 1 := by
    by_cases hab : a.val ≤ b.val
    · left
      rw [ZMod.val_sub hab]
      omega
    · right
      have hval : (b - a).val = b.val + fieldModulus - a.val := by
        have : b - a = ((b.val + fieldModulus - a.val : Nat) : Field128) := by
          rw [Nat.cast_sub (by omega), Nat.cast_add, ZMod.natCast_self, ZMod.natCast_zmod_val,
            ZMod.natCast_zmod_val, add_zero]
        rw [this, ZMod.val_natCast, Nat.mod_eq_of_lt (by omega)]
      rw [hval]
      omega
  have hone : (1 : Field128).val = 1 := ZMod.val_one'' (by decide)
  by_cases hw : 1 + (b - a).val < fieldModulus
  · right
    have : (1 + (b - a)).val = 1 + (b - a).val := by
      rw [ZMod.val_add_of_lt (by rw [hone]; exact hw), hone]
    rw [this]
    omega
  · left
    have hlt := ZMod.val_lt (b - a)
    have hval : 1 + (b - a).val = fieldModulus := by omega
    have : (1 + (b - a) : Field128) = ((1 + (b - a).val : Nat) : Field128) := by
      rw [Nat.cast_add, ZMod.natCast_zmod_val, Nat.cast_one]
    rw [this, hval, ZMod.natCast_self]

/-- **C34 (partial).**  At the first level the counter is bound, up to multiples of 2^64: if the proofs agree, the
truncated hash does not collide on the two inputs and the digests are equal, the counters of the two children
reconstruct to 0, or to a number that is 1 or 2 modulo 2^64.  (Missing: the levels below, `C34_false_checks`; and the
values 0 and 2 are not excluded either, because the check compares only the low 64 bits of two field elements.) -/
theorem C34_first_level_partial {n : Nat} {k0 k1 : VidpfKey} {x0 x1 : Field128}
    (h0 : Spec.firstCounter P n k0 = some x0) (h1 : Spec.firstCounter P n k1 = some x1)
    (hp : Spec.proofsAt P n k0 [[]] = Spec.proofsAt P n k1 [[]])
    (hinj : let x := Spec.foldBytes (Spec.prefixCheck P n true k0 [])
      let y := Spec.foldBytes (Spec.prefixCheck P n false k1 [])
      first16 (P.blake3 x) = first16 (P.blake3 y) → x = y)
    (h : Spec.digestAt P n true [[]] k0 = Spec.digestAt P n false [[]] k1) :
    Spec.low64 (1 - x0) = Spec.low64 x1 ∧
    (x0 + x1 = 0 ∨ Spec.low64 (x0 + x1) = 1 ∨ Spec.low64 (x0 + x1) = 2) := by
  have key : Spec.low64 (1 - x0) = Spec.low64 x1 := by
    unfold Spec.digestAt at h
    rw [hp] at h
    have hcancel : ∀ a b c : Block, vxor a b = vxor a c → b = c := by
      intro a b c h
      have := congrArg (vxor a) h
      rwa [← vxor_assoc, ← vxor_assoc, vxor_self, vxor_comm, vxor_zero, vxor_comm, vxor_zero] at this
    have h2 := hcancel _ _ _ h
    simp only [List.flatMap_cons, List.flatMap_nil, List.append_nil] at h2
    have hcnt : ∀ (kk : VidpfKey) (x : Field128), Spec.firstCounter P n kk = some x →
        ((Spec.valueAt P kk n [false]).getD []).getD n 0 + ((Spec.valueAt P kk n [true]).getD []).getD n 0 = x := by
      intro kk x hx
      unfold Spec.firstCounter at hx
      simp only [Option.bind_eq_bind, Option.bind_eq_some_iff] at hx
      obtain ⟨a, ha, b, hb, u, hu, v, hv, he⟩ := hx
      cases he
      rw [ha, hb]
      simp [List.getD_eq_getElem?_getD, hu, hv]
    have hx : Spec.prefixCheck P n true k0 [] = [1 - x0] := by
      unfold Spec.prefixCheck
      simp only [if_pos, ← hcnt _ _ h0]
      congr 1; ring
    have hy : Spec.prefixCheck P n false k1 [] = [x1] := by
      unfold Spec.prefixCheck
      simp only [if_pos, ← hcnt _ _ h1]
      rfl
    dsimp only at hinj
    rw [hx, hy] at h2 hinj
    have hf : ∀ z : Field128, Spec.foldBytes [z] = (encodeField z).take 8 := by
      intro z
      simp only [Spec.foldBytes, List.foldl_cons, List.foldl_nil]
      apply List.ext_getElem
      · simp [encodeField]
      · intro j h1 h2
        rw [List.getElem_zipWith, List.getElem_replicate]
        simp
    have := hinj h2
    rw [hf, hf] at this
    exact encode_low_inj this
  refine ⟨key, ?_⟩
  have := low64_diff key
  rwa [show 1 + (x1 - (1 - x0)) = x0 + x1 by ring] at this

/-- Its hypotheses hold for honest keys, with any hash. -/
example (rs : Block × Block) (alpha : List Bool) (beta : List Field128) (ha : alpha ≠ []) :
    let k := VidpfKey.gen P rs alpha beta
    (∃ x0 x1, Spec.firstCounter P beta.length k.1 = some x0 ∧ Spec.firstCounter P beta.length k.2 = some x1) ∧
    Spec.proofsAt P beta.length k.1 [[]] = Spec.proofsAt P beta.length k.2 [[]] ∧
    Spec.prefixCheck P beta.length true k.1 [] = Spec.prefixCheck P beta.length false k.2 [] ∧
    Spec.digestAt P beta.length true [[]] k.1 = Spec.digestAt P beta.length false [[]] k.2 := by
  have hl : 1 ≤ alpha.length := List.length_pos_of_ne_nil ha
  have hproof : Spec.proofsAt P beta.length (VidpfKey.gen P rs alpha beta).1 [[]] =
      Spec.proofsAt P beta.length (VidpfKey.gen P rs alpha beta).2 [[]] := by
    have h := fun b => honest_proofs (P := P) rs alpha beta [b] (by simpa using hl)
    simp only [Spec.proofsAt, List.flatMap_cons, List.flatMap_nil, List.append_nil, List.nil_append, h]
  have hcheck : Spec.prefixCheck P beta.length true (VidpfKey.gen P rs alpha beta).1 [] =
      Spec.prefixCheck P beta.length false (VidpfKey.gen P rs alpha beta).2 [] := by
    refine (prefixCheck_root (honest_recon (P := P) rs alpha beta) hl).2 ?_
    obtain ⟨b, alpha, rfl⟩ := List.exists_cons_of_ne_nil ha
    cases b <;> simp [Spec.pointValue]
  refine ⟨?_, hproof, hcheck, ?_⟩
  · obtain ⟨v0, v1, h0, h1, hs⟩ := honest_values P rs alpha beta [false] (by simp) (by simpa using hl)
    obtain ⟨w0, w1, g0, g1, gs⟩ := honest_values P rs alpha beta [true] (by simp) (by simpa using hl)
    have l1 : (Spec.addShares v0 v1).length = beta.length + 1 := by rw [hs]; simp [Spec.pointValue]; split <;> simp
    have l2 : (Spec.addShares w0 w1).length = beta.length + 1 := by rw [gs]; simp [Spec.pointValue]; split <;> simp
    simp only [Spec.addShares, List.length_zipWith] at l1 l2
    refine ⟨v0[beta.length] + w0[beta.length], v1[beta.length] + w1[beta.length], ?_, ?_⟩
    · simp [Spec.firstCounter, h0, g0, List.getElem?_eq_getElem (show beta.length < v0.length by omega),
        List.getElem?_eq_getElem (show beta.length < w0.length by omega)]
    · simp [Spec.firstCounter, h1, g1, List.getElem?_eq_getElem (show beta.length < v1.length by omega),
        List.getElem?_eq_getElem (show beta.length < w1.length by omega)]
  · unfold Spec.digestAt
    rw [hproof]
    simp only [List.flatMap_cons, List.flatMap_nil, List.append_nil, hcheck]

/-! ## C35 -/

theorem addShares_entry {a b : List Field128} {j : Nat} (h : j < (Spec.addShares a b).length) :
    j < a.length ∧ j < b.length ∧ (Spec.addShares a b).getD j 0 = a.getD j 0 + b.getD j 0 := by
  have : j < a.length ∧ j < b.length := by simpa [Spec.addShares] using h
  obtain ⟨ha, hb⟩ := this
  refine ⟨ha, hb, ?_⟩
  simp [List.getD_eq_getElem?_getD, ha, hb, Spec.addShares, List.getElem?_zipWith]

/-- If along a path every value is the sum of the children's, a value is the sum over the end of the path and the strings
leaving it. -/
theorem path_sum {V : List Bool → Option (List Field128)} {n : Nat} : ∀ (p a : List Bool) {r : List Field128},
    (∀ q, a <+: q → q <+: a ++ p → q ≠ a ++ p → ∃ r rl rr, V q = some r ∧ V (q ++ [false]) = some rl ∧
      V (q ++ [true]) = some rr ∧ r = Spec.addShares rl rr) →
    V a = some r → n < r.length →
    (∀ q ∈ (a ++ p) :: (Spec.siblings p).map (a ++ ·), (V q).isSome) ∧
    ∀ j ≤ n, (((a ++ p) :: (Spec.siblings p).map (a ++ ·)).map fun q => ((V q).getD []).getD j 0).sum = r.getD j 0
  | [], a, r, _, hr, _ => by
    simp [Spec.siblings, hr]
  | b :: p, a, r, h, hr, hn => by
    obtain ⟨r', rl, rr, g0, g1, g2, rfl⟩ := h a (List.prefix_refl _) (List.prefix_append _ _) (by simp)
    rw [hr] at g0
    cases g0
    obtain ⟨rb, rn, gb, gn, hlen, hsum⟩ : ∃ rb rn, V (a ++ [b]) = some rb ∧ V (a ++ [!b]) = some rn ∧ n < rb.length ∧
        ∀ j ≤ n, (Spec.addShares rl rr).getD j 0 = rn.getD j 0 + rb.getD j 0 := by
      cases b with
      | false =>
        refine ⟨rl, rr, g1, g2, (addShares_entry hn).1, fun j hj => ?_⟩
        rw [(addShares_entry (lt_of_le_of_lt hj hn)).2.2, add_comm]
      | true =>
        refine ⟨rr, rl, g2, g1, (addShares_entry hn).2.1, fun j hj => ?_⟩
        rw [(addShares_entry (lt_of_le_of_lt hj hn)).2.2]
    obtain ⟨q1, q2⟩ := path_sum p (a ++ [b]) (r := rb) (fun q hq1 hq2 hq3 => h q
      ((List.prefix_append a [b]).trans hq1) (by simpa using hq2) (by simpa using hq3)) gb hlen
    have hlist : ((a ++ b :: p) :: (Spec.siblings (b :: p)).map (a ++ ·)) =
        (a ++ [b] ++ p) :: (a ++ [!b]) :: (Spec.siblings p).map (a ++ [b] ++ ·) := by
      simp [Spec.siblings, List.map_map, Function.comp_def]
    rw [hlist]
    constructor
    · intro q hq
      simp only [List.mem_cons] at hq
      rcases hq with rfl | rfl | hq
      · exact q1 _ (by simp)
      · rw [gn]; rfl
      · exact q1 _ (by simp only [List.mem_cons]; exact .inr hq)
    · intro j hj
      have := q2 j hj
      simp only [List.map_cons, List.sum_cons, gn, Option.getD_some] at this ⊢
      rw [hsum j hj, ← this]
      ring

/-- **C35 (partial).**  In attribute-based mode leaf values are bound: if the two servers' transcripts agree on a path
list containing `p` and the hash does not collide on them, the value at `p` and the values at the strings leaving the
path of `p` add up to the verified weight, followed by the count 1.  (Missing: the heavy-hitters mode,
`C35_false_undetected`.) -/
theorem C35_attribute_mode_partial (k0 k1 : VidpfKey) (n : Nat) (paths : List (List Bool))
    (h0 : k0.keyIdx = false) (h1 : k1.keyIdx = true)
    (v0 v1 : List (List Field128)) (b0 b1 : List Field128) (t0 t1 : List Byte)
    (e0 : k0.evalTree P paths n = .ok (v0, b0, t0)) (e1 : k1.evalTree P paths n = .ok (v1, b1, t1))
    (hdigest : P.blake3 t0 = P.blake3 t1) (hcol : P.blake3 t0 = P.blake3 t1 → t0 = t1)
    {p : List Bool} (hp : p ∈ paths) (hne : p ≠ []) :
    ∃ R : List Bool → List Field128,
      (∀ q ∈ p :: Spec.siblings p, Spec.reconAt P k0 k1 n q = some (R q)) ∧
      ∀ j ≤ n, ((p :: Spec.siblings p).map fun q => (R q).getD j 0).sum = (Spec.addShares b0 b1 ++ [1]).getD j 0 := by
  obtain ⟨⟨rl, rr, cl, cr, hl, hr, hcl, hcr, hone, hbeta⟩, hin, -⟩ :=
    C06_eval_tree_sound P k0 k1 n paths h0 h1 v0 v1 b0 b1 t0 t1 e0 e1 hdigest hcol
  obtain ⟨b, p', rfl⟩ := List.exists_cons_of_ne_nil hne
  have hll : n < rl.length := (List.getElem?_eq_some_iff.1 hcl).1
  have hlr : n < rr.length := (List.getElem?_eq_some_iff.1 hcr).1
  obtain ⟨rb, rn, gb, gn, hlen, hsum⟩ : ∃ rb rn, Spec.reconAt P k0 k1 n [b] = some rb ∧
      Spec.reconAt P k0 k1 n [!b] = some rn ∧ n < rb.length ∧
      ∀ j ≤ n, rl.getD j 0 + rr.getD j 0 = rn.getD j 0 + rb.getD j 0 := by
    cases b with
    | false => exact ⟨rl, rr, hl, hr, hll, fun j _ => add_comm _ _⟩
    | true => exact ⟨rr, rl, hr, hl, hlr, fun j _ => rfl⟩
  obtain ⟨q1, q2⟩ := path_sum (V := Spec.reconAt P k0 k1 n) (n := n) p' [b] (fun q hq1 hq2 hq3 =>
    hin _ hp q (by rintro rfl; simp at hq1) (by simpa using hq2) (by simpa using hq3)) gb hlen
  refine ⟨fun q => (Spec.reconAt P k0 k1 n q).getD [], ?_, ?_⟩
  · intro q hq
    have : (Spec.reconAt P k0 k1 n q).isSome := by
      simp only [Spec.siblings, List.mem_cons] at hq
      rcases hq with rfl | rfl | hq
      · exact q1 _ (by simp)
      · rw [gn]; rfl
      · exact q1 _ (List.mem_cons_of_mem _ (by simpa using hq))
    obtain ⟨x, hx⟩ := Option.isSome_iff_exists.1 this
    simp only [hx, Option.getD_some]
  · intro j hj
    have hmain := q2 j hj
    simp only [Spec.siblings, List.map_cons, List.sum_cons, gn, Option.getD_some, List.singleton_append] at hmain ⊢
    have hsl : (Spec.addShares b0 b1).length = n := by
      rw [hbeta, List.length_take]
      simp [Spec.addShares]; omega
    have hgoal : (Spec.addShares b0 b1 ++ [1]).getD j 0 = rl.getD j 0 + rr.getD j 0 := by
      by_cases hjn : j < n
      · rw [List.getD_append _ _ _ _ (by omega), hbeta, ← (addShares_entry (a := rl) (b := rr) (j := j)
          (by simp [Spec.addShares]; omega)).2.2]
        simp [List.getD_eq_getElem?_getD, List.getElem?_take, hjn]
      · obtain rfl : j = n := by omega
        rw [List.getD_append_right _ _ _ _ (by omega), hsl]
        simp [List.getD_eq_getElem?_getD, hcl, hcr, hone]
    rw [hgoal, hsum j hj, ← hmain]
    ring

/-- Honest keys meet its hypotheses at every leaf. -/
example (rs : Block × Block) (alpha : List Bool) (beta : List Field128) (ha : alpha ≠ []) : ∃ v0 b0 v1 b1 t,
    (VidpfKey.gen P rs alpha beta).1.evalTree P [alpha] beta.length = .ok (v0, b0, t) ∧
    (VidpfKey.gen P rs alpha beta).2.evalTree P [alpha] beta.length = .ok (v1, b1, t) ∧
    (VidpfKey.gen P rs alpha beta).1.keyIdx = false ∧ (VidpfKey.gen P rs alpha beta).2.keyIdx = true := by
  obtain ⟨v0, b0, v1, b1, t, h0, h1, -⟩ := C04_eval_tree_honest P rs alpha beta [alpha] ha (by simpa using ha)
  exact ⟨v0, b0, v1, b1, t, h0, h1, (gen_keyPair P rs alpha beta).idx0, (gen_keyPair P rs alpha beta).idx1⟩

/-! ## C52 -/

/-- **C52 (partial).**  The other simulated tampering does change what is sent: a tampered FLP proof share and a
tampered Prio3 input share differ from the original in their first entry, and nothing else changes. -/
theorem C52_other_tampering_partial {s s' : ReportShare} {t : Tamper}
    (ht : (∃ nonce pub inp, s = .prio3 nonce pub inp) ∨ t = .flp) (h : tamperShare t s = .ok s') :
    (∃ nonce k x xs jr, s = .mastic nonce k (x :: xs) jr ∧ s' = .mastic nonce k ((x + 1337) :: xs) jr ∧
      x + 1337 ≠ x) ∨
    (∃ nonce pub x xs, s = .prio3 nonce pub (x :: xs) ∧ s' = .prio3 nonce pub ((x ^^^ 1) :: xs) ∧ x ^^^ 1 ≠ x) := by
  cases s with
  | mastic nonce k p jr =>
    obtain ⟨_, _, _, h'⟩ | rfl := ht
    · cases h'
    left
    cases p with
    | nil => cases h
    | cons x xs =>
      cases h
      refine ⟨nonce, k, x, xs, jr, rfl, rfl, fun he => ?_⟩
      have : (1337 : Field128) = 0 := by simpa using he
      exact absurd this (by decide)
  | prio3 nonce pub inp =>
    right
    cases inp with
    | nil => cases h
    | cons x xs =>
      cases h
      refine ⟨nonce, pub, x, xs, rfl, rfl, ?_⟩
      have : ∀ x : Byte, x ^^^ 1 ≠ x := by decide +kernel
      exact this x

example : tamperShare .key (.prio3 Block.zero [] [252#8]) = .ok (.prio3 Block.zero [] [253#8]) := rfl

end Mastic
