import Verif.Lemmas.KeyHide
import Verif.Lemmas.Toy
import Verif.Props.Prio3Hide

/-!
# C90: neither server learns a client's weight from a Mastic report
-/

namespace Mastic

variable {P : Prims}

section

variable {rs : Block × Block} {alpha : List Bool} {n : Nat} (own : Bool) (x x' : List Field128) (r0 t : Field128)

/-- The values that go with `x'` as the given ones go with `x`. -/
def moveCoins (w : Spec.KeyCoins P rs alpha n) : Spec.KeyCoins P rs alpha n :=
  let pr : Fin 4 → Field128 := fun j => w.2.1 j + wireShift n 2 x x' r0 t j
  (moveValues own x x' w.1, pr, fun j => w.2.2 j + if own then (proofOf n 2 x' (List.ofFn pr) r0).getD j 0
    - (proofOf n 2 x (List.ofFn w.2.1) r0).getD j 0 else 0)

theorem moveCoins_prove (w : Spec.KeyCoins P rs alpha n) :
    List.ofFn (moveCoins own x x' r0 t w).2.1 = shiftSeeds n 2 x x' r0 t (List.ofFn w.2.1) := by
  refine List.ext_getElem (by simp [shiftSeeds]) fun j h1 h2 => ?_
  have hj : j < 4 := by simpa using h1
  simp only [shiftSeeds, List.getElem_ofFn, List.getElem_map, List.getElem_range]
  rw [List.getD_eq_getElem _ _ (by simpa using hj), List.getElem_ofFn]
  rfl

theorem moveCoins_back (w : Spec.KeyCoins P rs alpha n) :
    moveCoins own x' x r0 t (moveCoins own x x' r0 t w) = w := by
  have e : (fun j : Fin 4 => (moveCoins own x x' r0 t w).2.1 j + wireShift n 2 x' x r0 t j) = w.2.1 := by
    funext j
    show w.2.1 j + _ + _ = _
    rw [add_assoc, wireShift_neg, add_zero]
  refine Prod.ext (moveValues_back own x x' w.1) (Prod.ext e ?_)
  funext j
  show w.2.2 j + (if own then (proofOf n 2 x' (List.ofFn (moveCoins own x x' r0 t w).2.1) r0).getD j 0
    - (proofOf n 2 x (List.ofFn w.2.1) r0).getD j 0 else 0) + (if own then (proofOf n 2 x (List.ofFn (fun j : Fin 4 =>
      (moveCoins own x x' r0 t w).2.1 j + wireShift n 2 x' x r0 t j)) r0).getD j 0
    - (proofOf n 2 x' (List.ofFn (moveCoins own x x' r0 t w).2.1) r0).getD j 0 else 0) = _
  rw [e]
  cases own <;> simp only [Bool.false_eq_true, if_false, if_true] <;> ring

theorem shareProof_moved (nonce : Block) (w : Spec.KeyCoins P rs alpha n) :
    Pair.get (shareProof (proofOf n 2 x' (List.ofFn (moveCoins own x x' r0 t w).2.1) r0)
        (Spec.coinsRand nonce (moveCoins own x x' r0 t w)).proofRand) own
      = Pair.get (shareProof (proofOf n 2 x (List.ofFn w.2.1) r0) (Spec.coinsRand nonce w).proofRand) own := by
  have hl : ∀ (x : List Field128) (w : Spec.KeyCoins P rs alpha n),
      (proofOf n 2 x (List.ofFn w.2.1) r0).length = histProofLen n 2 := fun x w => proofOf_length (by simp)
  have hs := fun (x : List Field128) (w : Spec.KeyCoins P rs alpha n) =>
    (shareProof_length (proofOf n 2 x (List.ofFn w.2.1) r0) (Spec.coinsRand nonce w).proofRand)
  have hs1 := fun x w => (hs x w).1.trans (hl x w)
  have hs2 := fun x w => (hs x w).2.trans (hl x w)
  cases own with
  | false =>
    refine List.ext_getElem ((hs1 _ _).trans (hs1 _ _).symm) fun j h1 h2 => ?_
    have hj : j < histProofLen n 2 := lt_of_lt_of_eq h1 (hs1 _ _)
    simp [Pair.get, shareProof, Spec.coinsRand, moveCoins, hj]
  | true =>
    refine List.ext_getElem ((hs2 _ _).trans (hs2 _ _).symm) fun j h1 h2 => ?_
    have hj : j < histProofLen n 2 := lt_of_lt_of_eq h1 (hs2 _ _)
    have g1 := List.getD_eq_getElem (proofOf n 2 x' (List.ofFn (moveCoins true x x' r0 t w).2.1) r0) 0 (n := j)
      (by rw [hl]; exact hj)
    have g2 := List.getD_eq_getElem (proofOf n 2 x (List.ofFn w.2.1) r0) 0 (n := j) (by rw [hl]; exact hj)
    have hm : (moveCoins true x x' r0 t w).2.2 ⟨j, hj⟩ = w.2.2 ⟨j, hj⟩
        + ((proofOf n 2 x' (List.ofFn (moveCoins true x x' r0 t w).2.1) r0).getD j 0
          - (proofOf n 2 x (List.ofFn w.2.1) r0).getD j 0) := rfl
    simp only [Pair.get, shareProof, Spec.coinsRand, hj, List.getElem_zipWith, List.getElem_map, List.getElem_zipIdx,
      dite_true, zero_add, hm]
    rw [g1, g2]
    ring

end

/-- The joint-randomness parts of a client with given seeds. -/
def seedParts (P : Prims) (rs : Block × Block) (nonce : Block) : Block × Block :=
  (P.xofBlock rs.1 Block.zero.toList (0#8 :: nonce.toList), P.xofBlock rs.2 Block.zero.toList (1#8 :: nonce.toList))

/-- The report of a client with given values. -/
theorem genMastic_coins {rs : Block × Block} {alpha : List Bool} {n b : Nat} {x : List Field128} {r0 r1 : Field128}
    {nonce : Block} (hx : encodeMeasurement n b = some x)
    (hj : P.xofField (seedParts P rs nonce).1 (seedParts P rs nonce).2.toList 2 = [r0, r1])
    {Q : Prims} {aes : Block → Block} (hQ : Q = { P.withHistogram with aes := aes })
    (w : Spec.KeyCoins P.withHistogram rs alpha n) :
    genMasticReport Q n alpha b (Spec.coinsRand nonce w)
      = .ok (.mastic nonce (VidpfKey.gen Q rs alpha x)
        (shareProof (proofOf n 2 x (List.ofFn w.2.1) r0) (Spec.coinsRand nonce w).proofRand)
        (seedParts P rs nonce) alpha) := by
  have hp : histProve n 2 x (List.ofFn w.2.1) [r0, r1] = some (proofOf n 2 x (List.ofFn w.2.1) r0) :=
    histProve_some.2 ⟨(encodeMeasurement_length hx).1, by simp, rfl⟩
  unfold genMasticReport
  rw [hx]
  have e1 : clientJointRandParts Q nonce (VidpfKey.gen Q rs alpha x).1 (VidpfKey.gen Q rs alpha x).2
      = seedParts P rs nonce := by rw [hQ]; rfl
  have e2 : Q.xofField (seedParts P rs nonce).1 (seedParts P rs nonce).2.toList (Q.jointRandLen n) = [r0, r1] := by
    rw [hQ]; exact hj
  have e3 : Q.flpProve n x (List.ofFn w.2.1) [r0, r1] = some (proofOf n 2 x (List.ofFn w.2.1) r0) := by
    rw [hQ]; exact hp
  have e4 : (Spec.coinsRand nonce w).nonce = nonce := rfl
  have e5 : (Spec.coinsRand nonce w).rootSeeds = rs := rfl
  have e6 : (Spec.coinsRand nonce w).proveRand = List.ofFn w.2.1 := rfl
  simp only [unwrapO, ok_bind, e4, e5, e6, e1, e2, e3]

theorem masticView_eq {rs : Block × Block} {alpha : List Bool} {n b : Nat} {x : List Field128} {r0 r1 : Field128}
    {nonce : Block} (vk : Block) (own : Bool) (hx : encodeMeasurement n b = some x)
    (hj : P.xofField (seedParts P rs nonce).1 (seedParts P rs nonce).2.toList 2 = [r0, r1])
    {Q : Prims} {aes : Block → Block} (hQ : Q = { P.withHistogram with aes := aes })
    (w : Spec.KeyCoins P.withHistogram rs alpha n) {ps : List Field128 × List Field128}
    (hps : ps = shareProof (proofOf n 2 x (List.ofFn w.2.1) r0) (Spec.coinsRand nonce w).proofRand) :
    Spec.masticView Q own n b alpha (Spec.coinsRand nonce w) vk
      = some (nonce, Pair.get (VidpfKey.gen Q rs alpha x) own, Pair.get ps own, seedParts P rs nonce,
        Spec.verifierOf Q n (if own then 1 else 0) vk
          (.mastic nonce (Pair.get (VidpfKey.gen Q rs alpha x) own) (Pair.get ps own) (seedParts P rs nonce)),
        Spec.verifierOf Q n (if own then 0 else 1) vk
          (.mastic nonce (Pair.get (VidpfKey.gen Q rs alpha x) (!own)) (Pair.get ps (!own)) (seedParts P rs nonce))) := by
  have hg := genMastic_coins hx hj hQ w
  rw [← hps] at hg
  unfold Spec.masticView
  rw [hg]

/-- **C90.**  What one server sees of a report for one bucket before the crawl, it would see of a report for any other with
the same string: whatever the seeds and the nonce the client draws, the verify key and the rest of the primitives, the
values that the server does not know correspond one to one so that all it sees is the same for corresponding values.  With
uniform values, what it sees has the same distribution for all buckets. -/
theorem C90_view {n b b' : Nat} (hn : n < 2 ^ 64) (hb : b < n) (hb' : b' < n)
    (hxof : ∀ seed binder l, (P.xofField seed binder l).length = l) {alpha : List Bool} (ha : alpha ≠ []) (own : Bool)
    {rs : Block × Block} (hf : Spec.FreshValues P.withHistogram rs alpha own n) (nonce vk : Block) :
    ∃ F : Spec.KeyCoins P.withHistogram rs alpha n ≃ Spec.KeyCoins P.withHistogram rs alpha n, ∀ w,
      (Spec.masticView (Spec.setValues P.withHistogram rs alpha (!own) n w.1) own n b alpha (Spec.coinsRand nonce w)
        vk).isSome ∧
      Spec.masticView (Spec.setValues P.withHistogram rs alpha (!own) n w.1) own n b alpha (Spec.coinsRand nonce w) vk
        = Spec.masticView (Spec.setValues P.withHistogram rs alpha (!own) n (F w).1) own n b' alpha
            (Spec.coinsRand nonce (F w)) vk := by
  obtain ⟨x, hx⟩ : ∃ x, x = Spec.bucketVec n b := ⟨_, rfl⟩
  obtain ⟨x', hx'⟩ : ∃ x, x = Spec.bucketVec n b' := ⟨_, rfl⟩
  have hx : encodeMeasurement n b = some x := by rw [hx]; exact encode_bucketVec hb
  have hx' : encodeMeasurement n b' = some x' := by rw [hx']; exact encode_bucketVec hb'
  have lx := (encodeMeasurement_length hx).1
  have lx' := (encodeMeasurement_length hx').1
  obtain ⟨r0, r1, hj⟩ := List.length_eq_two.1
    (hxof (seedParts P rs nonce).1 (seedParts P rs nonce).2.toList 2)
  obtain ⟨t, ht⟩ := List.length_eq_one_iff.1 (hxof vk nonce.toList 1)
  refine ⟨⟨moveCoins own x x' r0 t, moveCoins own x' x r0 t, moveCoins_back _ _ _ _ _, moveCoins_back _ _ _ _ _⟩,
    fun w => ?_⟩
  show _ ∧ _ = Spec.masticView (Spec.setValues P.withHistogram rs alpha (!own) n (moveCoins own x x' r0 t w).1) own n b'
    alpha (Spec.coinsRand nonce (moveCoins own x x' r0 t w)) vk
  obtain ⟨w', hw'⟩ : ∃ w', w' = moveCoins own x x' r0 t w := ⟨_, rfl⟩
  obtain ⟨Q, hQ⟩ : ∃ Q, Q = Spec.setValues P.withHistogram rs alpha (!own) n w.1 := ⟨_, rfl⟩
  obtain ⟨Q', hQ'⟩ : ∃ Q, Q = Spec.setValues P.withHistogram rs alpha (!own) n w'.1 := ⟨_, rfl⟩
  have hgen : VidpfKey.gen Q' rs alpha x' = VidpfKey.gen Q rs alpha x := by
    have h := genLoop_moved hf w.1 lx lx'
    have h : genLoop Q' x' alpha [] (false, true) rs = genLoop Q x alpha [] (false, true) rs := by
      rw [hQ, hQ', hw']; exact h
    unfold VidpfKey.gen
    rw [h]
  obtain ⟨ps, hps⟩ : ∃ ps, ps = shareProof (proofOf n 2 x (List.ofFn w.2.1) r0) (Spec.coinsRand nonce w).proofRand :=
    ⟨_, rfl⟩
  obtain ⟨ps', hps'⟩ : ∃ ps, ps = shareProof (proofOf n 2 x' (List.ofFn w'.2.1) r0)
    (Spec.coinsRand nonce w').proofRand := ⟨_, rfl⟩
  have hpo : Pair.get ps' own = Pair.get ps own := by
    rw [hps, hps', hw']; exact shareProof_moved own x x' r0 t nonce w
  rw [← hw', ← hQ, ← hQ', masticView_eq vk own hx hj hQ w hps, masticView_eq vk own hx' hj hQ' w' hps', hgen, hpo]
  refine ⟨rfl, ?_⟩
  have hown : Spec.verifierOf Q' n (if own then 1 else 0) vk (.mastic nonce (Pair.get (VidpfKey.gen Q rs alpha x) own)
        (Pair.get ps own) (seedParts P rs nonce))
      = Spec.verifierOf Q n (if own then 1 else 0) vk (.mastic nonce (Pair.get (VidpfKey.gen Q rs alpha x) own)
        (Pair.get ps own) (seedParts P rs nonce)) := by
    obtain ⟨a, as, haa⟩ : ∃ a as, alpha = a :: as := by
      cases alpha with
      | nil => exact absurd rfl ha
      | cons a as => exact ⟨a, as, rfl⟩
    obtain ⟨cw, cws, c, cs, hk, hs⟩ := gen_first (rs := rs) (Q := Q) (a := a) (as := as) (beta := x)
    rw [← haa] at hk
    have hs : cw.seed = vxor (Spec.child P.withHistogram rs.1 (!a)) (Spec.child P.withHistogram rs.2 (!a)) := by
      rw [hs, hQ, (root_child hf w.1 haa _).1, (root_child hf w.1 haa _).2]
    have hv : ∀ v d, Spec.valueAt (Spec.setValues P.withHistogram rs alpha (!own) n v)
        (Pair.get (VidpfKey.gen Q rs alpha x) own) n [d]
          = Spec.valueAt P.withHistogram (Pair.get (VidpfKey.gen Q rs alpha x) own) n [d] := by
      intro v d
      refine own_value hf v haa (cw := cw) (cws := cws) (c := c) (cs := cs) ?_ ?_ ?_ ?_ hs d
      · cases own <;> rfl
      · cases own <;> rfl
      · cases own <;> exact congrArg Prod.fst hk
      · cases own <;> exact congrArg Prod.snd hk
    have v0 : ∀ d, Spec.valueAt Q' (Pair.get (VidpfKey.gen Q rs alpha x) own) n [d]
        = Spec.valueAt Q (Pair.get (VidpfKey.gen Q rs alpha x) own) n [d] := by
      intro d
      conv_lhs => rw [hQ']
      conv_rhs => arg 1; rw [hQ]
      rw [hv, hv]
    unfold Spec.verifierOf
    simp only [v0]
    rw [hQ', hQ]
    rfl
  have hother : Spec.verifierOf Q' n (if own then 0 else 1) vk (.mastic nonce
        (Pair.get (VidpfKey.gen Q rs alpha x) (!own)) (Pair.get ps' (!own)) (seedParts P rs nonce))
      = Spec.verifierOf Q n (if own then 0 else 1) vk (.mastic nonce (Pair.get (VidpfKey.gen Q rs alpha x) (!own))
        (Pair.get ps (!own)) (seedParts P rs nonce)) := by
    obtain ⟨y0, y1, hy, hver⟩ := gen_verifiers (P := Q) (id0 := 0) (id1 := 1) rfl (by decide) ha lx nonce rs
    obtain ⟨y0', y1', hy', hver'⟩ := gen_verifiers (P := Q') (id0 := 0) (id1 := 1) rfl (by decide) ha lx' nonce rs
    have hver := hver vk ps.1 ps.2 (seedParts P rs nonce) (by rw [hQ]; rfl)
    have hver' := hver' vk ps'.1 ps'.2 (seedParts P rs nonce) (by rw [hQ']; rfl)
    have e : ∀ w y p, (Spec.setValues P.withHistogram rs alpha (!own) n w).flpQuery n y p
        ((Spec.setValues P.withHistogram rs alpha (!own) n w).xofField vk nonce.toList
          ((Spec.setValues P.withHistogram rs alpha (!own) n w).queryRandLen n))
        ((Spec.setValues P.withHistogram rs alpha (!own) n w).xofField (seedParts P rs nonce).1
          (seedParts P rs nonce).2.toList ((Spec.setValues P.withHistogram rs alpha (!own) n w).jointRandLen n))
        = histQuery n 2 y p [t] [r0, r1] 2 := by
      intro w y p
      rw [← hj, ← ht]
      rfl
    have eQ : ∀ y p, Q.flpQuery n y p (Q.xofField vk nonce.toList (Q.queryRandLen n)) (Q.xofField
        (seedParts P rs nonce).1 (seedParts P rs nonce).2.toList (Q.jointRandLen n))
        = histQuery n 2 y p [t] [r0, r1] 2 := fun y p => by rw [hQ]; exact e _ _ _
    have eQ' : ∀ y p, Q'.flpQuery n y p (Q'.xofField vk nonce.toList (Q'.queryRandLen n)) (Q'.xofField
        (seedParts P rs nonce).1 (seedParts P rs nonce).2.toList (Q'.jointRandLen n))
        = histQuery n 2 y p [t] [r0, r1] 2 := fun y p => by rw [hQ']; exact e _ _ _
    rw [eQ, eQ] at hver
    rw [eQ', eQ', hgen] at hver'
    have hl : ∀ (x : List Field128) (w : Spec.KeyCoins P.withHistogram rs alpha n),
        (proofOf n 2 x (List.ofFn w.2.1) r0).length = histProofLen n 2 := fun x w => proofOf_length (by simp)
    have hps0 : Spec.Shares (proofOf n 2 x (List.ofFn w.2.1) r0) ps.1 ps.2 := by
      rw [hps]; exact ⟨(shareProof_length _ _).1, (shareProof_length _ _).2, shareProof_add _ _⟩
    have hps1 : Spec.Shares (proofOf n 2 x' (List.ofFn w'.2.1) r0) ps'.1 ps'.2 := by
      rw [hps']; exact ⟨(shareProof_length _ _).1, (shareProof_length _ _).2, shareProof_add _ _⟩
    by_cases hroot : t ^ wireLen n 2 = 1
    · have hnone : ∀ y p, histQuery n 2 y p [t] [r0, r1] 2 = none := by
        intro y p
        rw [Option.eq_none_iff_forall_ne_some]
        intro v e
        exact (histQuery_some.1 e).2.2.1 hroot
      rw [hnone, hnone] at hver hver'
      cases own with
      | false => exact hver'.2.trans hver.2.symm
      | true => exact hver'.1.trans hver.1.symm
    · have q : ∀ y p, y.length = n → p.length = histProofLen n 2 → histQuery n 2 y p [t] [r0, r1] 2
          = some (histVer n 2 y p t r0 r1 ((2 : Nat) : Field128)⁻¹) :=
        fun y p hy hp => histQuery_some.2 ⟨hy, hp, hroot, rfl⟩
      rw [q y0 _ (hy.1.trans lx) (hps0.1.trans (hl _ _)), q y1 _ (hy.2.1.trans lx) (hps0.2.1.trans (hl _ _))] at hver
      rw [q y0' _ (hy'.1.trans lx') (hps1.1.trans (hl _ _)),
        q y1' _ (hy'.2.1.trans lx') (hps1.2.1.trans (hl _ _))] at hver'
      have tot := histVer_add (n := n) (c := 2) (hy.1.trans hy.2.1.symm) (hps0.1.trans hps0.2.1.symm) t r0 r1
        ((2 : Nat) : Field128)⁻¹ ((2 : Nat) : Field128)⁻¹
      have tot' := histVer_add (n := n) (c := 2) (hy'.1.trans hy'.2.1.symm) (hps1.1.trans hps1.2.1.symm) t r0 r1
        ((2 : Nat) : Field128)⁻¹ ((2 : Nat) : Field128)⁻¹
      rw [hy.2.2, hps0.2.2, half_add_half_field] at tot
      have hsh := shifted_verifier (n := n) (c := 2) (by norm_num) (wireLog_le (by norm_num) hn) (x := x) (x' := x')
        (pr := List.ofFn w.2.1) (t := t) (r0 := r0) (r1 := r1) lx lx' (by simp)
        (histogramCheck_oneHot (oneHot_iff.2 ⟨b, hx⟩) _ _) (histogramCheck_oneHot (oneHot_iff.2 ⟨b', hx'⟩) _ _) hroot
      have hpr : List.ofFn w'.2.1 = shiftSeeds n 2 x x' r0 t (List.ofFn w.2.1) := by
        rw [hw']; exact moveCoins_prove own x x' r0 t w
      rw [hy'.2.2, hps1.2.2, half_add_half_field, hpr, hsh, ← tot] at tot'
      cases own with
      | false =>
        have h0 : histVer n 2 y0' ps'.1 t r0 r1 ((2 : Nat) : Field128)⁻¹
            = histVer n 2 y0 ps.1 t r0 r1 ((2 : Nat) : Field128)⁻¹ := by
          have h1 := hver'.1
          rw [show ps'.1 = ps.1 from hpo] at h1 ⊢
          exact Option.some.inj (h1.symm.trans (hown.trans hver.1))
        rw [h0] at tot'
        have h1 := addShares_cancel (by simp only [histVer_length]) (by simp only [histVer_length]) tot'
        exact hver'.2.trans ((congrArg some h1).trans hver.2.symm)
      | true =>
        have h0 : histVer n 2 y1' ps'.2 t r0 r1 ((2 : Nat) : Field128)⁻¹
            = histVer n 2 y1 ps.2 t r0 r1 ((2 : Nat) : Field128)⁻¹ := by
          have h1 := hver'.2
          rw [show ps'.2 = ps.2 from hpo] at h1 ⊢
          exact Option.some.inj (h1.symm.trans (hown.trans hver.2))
        rw [h0] at tot'
        have h1 := addShares_cancel' (by simp only [histVer_length]) (by simp only [histVer_length]) tot'
        exact hver'.1.trans ((congrArg some h1).trans hver.1.symm)
  rw [hown, hother]

instance (P : Prims) (rs : Block × Block) (alpha : List Bool) (own : Bool) (n : Nat) (c : Block) :
    Decidable (Spec.UsedInput P rs alpha own n c) := by
  unfold Spec.UsedInput; infer_instance

instance (P : Prims) (rs : Block × Block) (alpha : List Bool) (own : Bool) (n : Nat) :
    Decidable (Spec.FreshValues P rs alpha own n) := by
  unfold Spec.FreshValues; infer_instance

/-- A cipher that mixes a little. -/
def squareAes (b : Block) : Block :=
  Vector.ofFn fun i => b[i] * b[i] + 17#8 * (b[(i.val + 1) % 16]'(Nat.mod_lt _ (by decide))) + BitVec.ofNat 8 (i.val * 37 + 11)

def squareToy : Prims := { toy with aes := squareAes }

def squareSeeds : Block × Block := (Vector.replicate 16 0x40#8, Vector.replicate 16 0x84#8)

example (own : Bool) (nonce vk : Block) :
    ∃ F : Spec.KeyCoins squareToy.withHistogram squareSeeds [true, false] 2
        ≃ Spec.KeyCoins squareToy.withHistogram squareSeeds [true, false] 2, ∀ w,
      (Spec.masticView (Spec.setValues squareToy.withHistogram squareSeeds [true, false] (!own) 2 w.1) own 2 0 [true, false]
        (Spec.coinsRand nonce w) vk).isSome ∧
      Spec.masticView (Spec.setValues squareToy.withHistogram squareSeeds [true, false] (!own) 2 w.1) own 2 0 [true, false]
          (Spec.coinsRand nonce w) vk
        = Spec.masticView (Spec.setValues squareToy.withHistogram squareSeeds [true, false] (!own) 2 (F w).1) own 2 1
            [true, false] (Spec.coinsRand nonce (F w)) vk :=
  C90_view (P := squareToy) (n := 2) (b := 0) (b' := 1) (by norm_num) (by norm_num) (by norm_num)
    (fun _ _ _ => List.length_replicate) (by decide) own (by cases own <;> decide +kernel) nonce vk

/-- **C90.**  The two keys together determine the weight. -/
theorem C90_together {alpha alpha' : List Bool} (ha : alpha ≠ []) (ha' : alpha' ≠ []) {beta beta' : List Field128}
    (hl : beta'.length = beta.length) {rs rs' : Block × Block}
    (h : VidpfKey.gen P rs alpha beta = VidpfKey.gen P rs' alpha' beta') : beta = beta' := by
  have hal : 1 ≤ alpha.length := by cases alpha <;> simp at ha ⊢
  have hal' : 1 ≤ alpha'.length := by cases alpha' <;> simp at ha' ⊢
  obtain ⟨u0, u1, g0, g1, gs⟩ := honest_values P rs alpha beta [false] (by simp) (by simpa using hal)
  obtain ⟨w0, w1, q0, q1, qs⟩ := honest_values P rs alpha beta [true] (by simp) (by simpa using hal)
  obtain ⟨u0', u1', g0', g1', gs'⟩ := honest_values P rs' alpha' beta' [false] (by simp) (by simpa using hal')
  obtain ⟨w0', w1', q0', q1', qs'⟩ := honest_values P rs' alpha' beta' [true] (by simp) (by simpa using hal')
  rw [← h, hl] at g0' g1' q0' q1'
  cases g0.symm.trans g0'; cases g1.symm.trans g1'; cases q0.symm.trans q0'; cases q1.symm.trans q1'
  have lu0 := valueAt_length (by simp) g0
  have lu1 := valueAt_length (by simp) g1
  have lw0 := valueAt_length (by simp) q0
  have lw1 := valueAt_length (by simp) q1
  exact (betaShares_sum ha rfl lu0 lw0 lu1 lw1 gs qs).symm.trans (betaShares_sum ha' hl lu0 lw0 lu1 lw1 gs' qs')

example : VidpfKey.gen toy squareSeeds [true, false] [1, 0] ≠ VidpfKey.gen toy squareSeeds [true, false] [0, 1] := fun h =>
  absurd (C90_together (P := toy) (beta := [1, 0]) (beta' := [0, 1]) (by decide) (by decide) rfl h) (by decide +kernel)

/-- **C90.**  Randomness used twice tells the difference of the weights: with the same seeds, keys for two weights differ
only in the value correction words, and at every level by the difference of the weights, up to sign. -/
theorem C90_reuse {alpha : List Bool} {beta beta' : List Field128} (hl : beta'.length = beta.length)
    (rs : Block × Block) (own : Bool) :
    let k := Pair.get (VidpfKey.gen P rs alpha beta) own
    let k' := Pair.get (VidpfKey.gen P rs alpha beta') own
    k'.rootSeed = k.rootSeed ∧ k'.cs = k.cs ∧ k.corWords.length = alpha.length ∧ k'.corWords.length = alpha.length ∧
    ∀ (l : Nat) (cw cw' : CorWord), k.corWords[l]? = some cw → k'.corWords[l]? = some cw' →
      cw'.seed = cw.seed ∧ cw'.bits = cw.bits ∧
        List.zipWith (· - ·) cw'.word cw.word = (if l % 2 = 0 then List.zipWith (· - ·) beta' beta
          else List.zipWith (· - ·) beta beta') ++ [0] := by
  obtain ⟨h1, h2, h3, h4⟩ := genLoop_reuse (P := P) hl alpha [] (false, true) rs
  have h4 : ∀ (l : Nat) (cw cw' : CorWord), (genLoop P beta alpha [] (false, true) rs).1[l]? = some cw →
      (genLoop P beta' alpha [] (false, true) rs).1[l]? = some cw' → cw'.seed = cw.seed ∧ cw'.bits = cw.bits ∧
        List.zipWith (· - ·) cw'.word cw.word = (if l % 2 = 0 then List.zipWith (· - ·) beta' beta
          else List.zipWith (· - ·) beta beta') ++ [0] := by
    intro l cw cw' h h'
    obtain ⟨a, b, c⟩ := h4 l cw cw' h h'
    exact ⟨a, b, by simpa using c⟩
  cases own
  · exact ⟨rfl, h1, h2, h3, h4⟩
  · exact ⟨rfl, h1, h2, h3, h4⟩

example : ∃ cw cw', (Pair.get (VidpfKey.gen toy squareSeeds [true, false] [1, 0]) true).corWords[1]? = some cw ∧
    (Pair.get (VidpfKey.gen toy squareSeeds [true, false] [0, 1]) true).corWords[1]? = some cw' ∧
    List.zipWith (· - ·) cw'.word cw.word = ([1, -1, 0] : List Field128) := by
  obtain ⟨-, -, h1, h2, h⟩ := C90_reuse (P := toy) (alpha := [true, false]) (beta := [1, 0]) (beta' := [0, 1]) rfl
    squareSeeds true
  refine ⟨_, _, List.getElem?_eq_getElem (by rw [h1]; decide), List.getElem?_eq_getElem (by rw [h2]; decide), ?_⟩
  rw [(h 1 _ _ (List.getElem?_eq_getElem (by rw [h1]; decide)) (List.getElem?_eq_getElem (by rw [h2]; decide))).2.2]
  simp

end Mastic
