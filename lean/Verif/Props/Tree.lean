import Verif.Lemmas.Tree
import Verif.Lemmas.Toy

/-!
# Properties of prefix-tree evaluation (`eval_tree`): C04, C05, C06, C08
-/

namespace Mastic

/-! ## C05: the cache is transparent -/

/-- C05. For any key and any path list on which `eval_tree` returns, the reported share of each path
is the share obtained by evaluating that path bit by bit from a fresh state. -/
theorem C05_cache_transparent (P : Prims) (key : VidpfKey) (n : Nat) (paths : List (List Bool))
    (values : List (List Field128)) (beta : List Field128) (bytes : List Byte)
    (h : key.evalTree P paths n = .ok (values, beta, bytes)) :
    List.Forall₂ (fun path v => ∃ st, Spec.evalPath P key n path = .ok (st, some v)) paths values := by
  refine (evalTree_spec h).1.imp ?_
  rintro p v ⟨hv, -⟩
  unfold Spec.valueAt at hv
  split at hv
  · rename_i st w e
    exact ⟨st, by rw [e, hv]⟩
  · cases hv

/-- C05. The share of beta is the sum of the two level-1 shares, whatever paths were evaluated, and
the hashed bytes are determined by direct evaluation: per path, the path checks of its non-empty
strict prefixes not met before and then the path's own proof; finally the level-1 counter check. -/
theorem C05_transcript (P : Prims) (key : VidpfKey) (n : Nat) (paths : List (List Bool))
    (values : List (List Field128)) (beta : List Field128) (bytes : List Byte)
    (h : key.evalTree P paths n = .ok (values, beta, bytes)) :
    ∃ (a b : List Field128) (cnt : Field128) (chk : List Bool → List Field128)
      (prf : List Bool → Block),
      Spec.valueAt P key n [false] = some a ∧ Spec.valueAt P key n [true] = some b ∧
      beta = (Spec.addShares a b).take n ∧ (Spec.addShares a b)[n]? = some cnt ∧
      (∀ p ∈ paths, Spec.proofAt P key n p = some (prf p) ∧
        ∀ q, q <+: p → q ≠ p → q ≠ [] → Spec.pathCheck P key n q = some (chk q)) ∧
      bytes = Spec.layout chk prf [] paths
        ++ encodeField (if key.keyIdx then -cnt + 1 else cnt) := by
  obtain ⟨-, h2, a, b, cnt, h3, h4, -, -, h5, h6, h7⟩ := evalTree_spec h
  refine ⟨a, b, cnt, chkD P key n, prfD P key n, h3, h4, h6, h5, fun p hp => ⟨(h2 p hp).2.1, ?_⟩, h7⟩
  intro q hq hqp hq0
  obtain ⟨c, hc, -⟩ := (h2 p hp).2.2 q (mem_strictPrefixes.2 ⟨hq, hqp⟩) hq0
  rw [hc, chkD, hc]; rfl

/-- A key and paths on which `eval_tree` returns, as C05 requires. -/
example : ∃ values beta bytes, (VidpfKey.gen toy (toyRand 0).rootSeeds [true, false] [5]).1.evalTree toy
    [[true, true], [true], [false], [true, false]] 1 = .ok (values, beta, bytes) ∧ values.length = 4 := by
  have h : ((VidpfKey.gen toy (toyRand 0).rootSeeds [true, false] [5]).1.evalTree toy
    [[true, true], [true], [false], [true, false]] 1).map (fun r => r.1.length) = .ok 4 := by decide +kernel
  match e : (VidpfKey.gen toy (toyRand 0).rootSeeds [true, false] [5]).1.evalTree toy
    [[true, true], [true], [false], [true, false]] 1 with
  | .ok (v, b, t) => rw [e] at h; exact ⟨v, b, t, rfl, Except.ok.inj h⟩
  | .error p => rw [e] at h; cases h

/-! ## C04: honest keys -/

/-- C04. For keys of one report and any list of non-empty paths of the domain, both servers'
`eval_tree` return; the value shares add up to the point function, the weight shares add up to
`beta`, and the two servers hash the same bytes. -/
theorem C04_eval_tree_honest (P : Prims) (rs : Block × Block) (alpha : List Bool)
    (beta : List Field128) (paths : List (List Bool)) (ha : alpha ≠ [])
    (hp : ∀ p ∈ paths, p ≠ [] ∧ p.length ≤ alpha.length) :
    ∃ v0 b0 v1 b1 bytes,
      (VidpfKey.gen P rs alpha beta).1.evalTree P paths beta.length = .ok (v0, b0, bytes) ∧
      (VidpfKey.gen P rs alpha beta).2.evalTree P paths beta.length = .ok (v1, b1, bytes) ∧
      v0.length = paths.length ∧ v1.length = paths.length ∧
      List.zipWith Spec.addShares v0 v1 = paths.map (Spec.pointValue alpha beta) ∧
      Spec.addShares b0 b1 = beta := by
  exact honest_evalTree P rs alpha beta paths ha hp

/-- nested, repeated and off-path prefixes in any order -/
example : ∀ p ∈ ([[true, true], [true], [false], [true], [false, true]] : List (List Bool)),
    p ≠ [] ∧ p.length ≤ ([true, false, true] : List Bool).length := by decide

/-- C05 applies to every honest report evaluated on repeated and nested paths. -/
example (P : Prims) (rs : Block × Block) (beta : List Field128) : ∃ r,
    (VidpfKey.gen P rs [true, false, true] beta).1.evalTree P
      [[true, true], [true], [false], [true], [false, true]] beta.length = .ok r := by
  obtain ⟨v0, b0, v1, b1, t, h0, -⟩ := C04_eval_tree_honest P rs [true, false, true] beta
    [[true, true], [true], [false], [true], [false, true]] (by decide) (by decide)
  exact ⟨_, h0⟩

/-! ## C06: soundness of the evaluation proof -/

/-- C06. For arbitrary keys with indices 0 and 1: if the digests of the two servers' transcripts agree
and the hash does not collide on these two transcripts, then the level-1 counters add up to one,
every non-empty strict prefix of a queried path has a reconstructed value equal to the sum of its
children's (all components), and the one-hot proofs agree at every queried path. -/
theorem C06_eval_tree_sound (P : Prims) (k0 k1 : VidpfKey) (n : Nat) (paths : List (List Bool))
    (h0 : k0.keyIdx = false) (h1 : k1.keyIdx = true)
    (v0 v1 : List (List Field128)) (b0 b1 : List Field128) (t0 t1 : List Byte)
    (e0 : k0.evalTree P paths n = .ok (v0, b0, t0)) (e1 : k1.evalTree P paths n = .ok (v1, b1, t1))
    (hdigest : P.blake3 t0 = P.blake3 t1) (hcol : P.blake3 t0 = P.blake3 t1 → t0 = t1) :
    (∃ rl rr cl cr, Spec.reconAt P k0 k1 n [false] = some rl ∧
      Spec.reconAt P k0 k1 n [true] = some rr ∧ rl[n]? = some cl ∧ rr[n]? = some cr ∧ cl + cr = 1 ∧
      Spec.addShares b0 b1 = (Spec.addShares rl rr).take n) ∧
    (∀ p ∈ paths, ∀ q, q ≠ [] → q <+: p → q ≠ p →
      ∃ r rl rr, Spec.reconAt P k0 k1 n q = some r ∧
        Spec.reconAt P k0 k1 n (q ++ [false]) = some rl ∧
        Spec.reconAt P k0 k1 n (q ++ [true]) = some rr ∧ r = Spec.addShares rl rr) ∧
    (∀ p ∈ paths, ∃ pr, Spec.proofAt P k0 n p = some pr ∧ Spec.proofAt P k1 n p = some pr) :=
  evalTree_sound P k0 k1 n paths h0 h1 v0 v1 b0 b1 t0 t1 e0 e1 (hcol hdigest)

/-- The hypotheses are met by every honest report (C04), with an injective or any other hash. -/
example (P : Prims) (rs : Block × Block) (alpha : List Bool) (beta : List Field128)
    (ha : alpha ≠ []) : ∃ v0 b0 v1 b1 t,
      (VidpfKey.gen P rs alpha beta).1.evalTree P [alpha] beta.length = .ok (v0, b0, t) ∧
      (VidpfKey.gen P rs alpha beta).2.evalTree P [alpha] beta.length = .ok (v1, b1, t) ∧
      (P.blake3 t = P.blake3 t → t = t) := by
  obtain ⟨v0, b0, v1, b1, t, h0, h1, -⟩ := C04_eval_tree_honest P rs alpha beta [alpha] ha
    (by simpa using ha)
  exact ⟨v0, b0, v1, b1, t, h0, h1, fun _ => rfl⟩

/-! ## C08: a verified leaf layer has total weight beta and total count one -/

/-- C08. For arbitrary keys with indices 0 and 1 whose transcripts agree on a path list containing all
strings of length `d`, the reconstructed values of all strings of length `d` add up to the
reconstructed `beta` followed by the count 1. -/
theorem C08_layer_sums_to_beta (P : Prims) (k0 k1 : VidpfKey) (n d : Nat)
    (paths : List (List Bool)) (h0 : k0.keyIdx = false) (h1 : k1.keyIdx = true) (hd : 1 ≤ d)
    (hcover : ∀ q : List Bool, q.length = d → q ∈ paths)
    (v0 v1 : List (List Field128)) (b0 b1 : List Field128) (t0 t1 : List Byte)
    (e0 : k0.evalTree P paths n = .ok (v0, b0, t0)) (e1 : k1.evalTree P paths n = .ok (v1, b1, t1))
    (hdigest : P.blake3 t0 = P.blake3 t1) (hcol : P.blake3 t0 = P.blake3 t1 → t0 = t1) :
    ∃ R : List Bool → List Field128,
      (∀ q : List Bool, q.length = d → Spec.reconAt P k0 k1 n q = some (R q)) ∧
      Spec.sumVecs (n + 1) ((Spec.allPaths d).map R) = Spec.addShares b0 b1 ++ [1] :=
  evalTree_layer P k0 k1 n d paths h0 h1 hd hcover v0 v1 b0 b1 t0 t1 e0 e1 (hcol hdigest)

/-- Honest keys meet every hypothesis of C08 on the full layer of any depth within the domain. -/
example (P : Prims) (rs : Block × Block) (alpha : List Bool) (beta : List Field128) (d : Nat)
    (hd : 1 ≤ d) (hda : d ≤ alpha.length) : ∃ v0 b0 v1 b1 t,
      (VidpfKey.gen P rs alpha beta).1.keyIdx = false ∧
      (VidpfKey.gen P rs alpha beta).2.keyIdx = true ∧
      (∀ q : List Bool, q.length = d → q ∈ Spec.allPaths d) ∧
      (VidpfKey.gen P rs alpha beta).1.evalTree P (Spec.allPaths d) beta.length = .ok (v0, b0, t) ∧
      (VidpfKey.gen P rs alpha beta).2.evalTree P (Spec.allPaths d) beta.length = .ok (v1, b1, t) := by
  have ha : alpha ≠ [] := by rintro rfl; simp at hda; omega
  obtain ⟨v0, b0, v1, b1, t, h0, h1, -⟩ := C04_eval_tree_honest P rs alpha beta (Spec.allPaths d) ha
    (fun p hp => by
      have := mem_allPaths.1 hp
      exact ⟨by rintro rfl; simp at this; omega, by omega⟩)
  exact ⟨v0, b0, v1, b1, t, (gen_keyPair P rs alpha beta).idx0, (gen_keyPair P rs alpha beta).idx1,
    fun q hq => mem_allPaths.2 hq, h0, h1⟩

/-- `allPaths d` lists every string of length `d` exactly once. -/
theorem C08_allPaths (d : Nat) (q : List Bool) :
    (q ∈ Spec.allPaths d ↔ q.length = d) ∧ (Spec.allPaths d).Nodup ∧
      (Spec.allPaths d).length = 2 ^ d := by
  exact ⟨mem_allPaths, allPaths_nodup d, allPaths_length d⟩

end Mastic
