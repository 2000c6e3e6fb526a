import Verif.Props.Wire

/-!
# C55: the proof shares that are sent

The theorems of `Verif.Props.Driver` are about the function that shares a proof. Here the statement is about the two
messages of one client.
-/

namespace Mastic

variable {P : Prims}

/-- C55. Of a generated report, the two servers are sent proof shares that add up to the proof the client made for its
one-hot measurement, and server 0 is sent the chosen randomness. -/
theorem C55_sent {buckets bucket : Nat} {alpha : List Bool} {r : ClientRand} {rep : PlaintextReport}
    (h : genMasticReport P buckets alpha bucket r = .ok rep) :
    bucket < buckets ∧ ∃ n k0 k1 p0 p1 jr proof,
      rep.toShares = (.mastic n k0 p0 jr, .mastic n k1 p1 jr) ∧
      P.flpProve buckets ((List.replicate buckets 0).set bucket 1) r.proveRand
        (P.xofField jr.1 jr.2.toList (P.jointRandLen buckets)) = some proof ∧
      Spec.addShares p0 p1 = proof ∧
      p0 = (List.range proof.length).map r.proofRand ∧ p1.length = proof.length := by
  unfold genMasticReport at h
  obtain ⟨beta, h1, h⟩ := bind_eq_ok.1 h
  obtain ⟨proof, h2, h⟩ := bind_eq_ok.1 h
  rw [unwrapO_eq_ok] at h1 h2
  unfold encodeMeasurement at h1
  split at h1
  case isFalse => cases h1
  case isTrue hb =>
    cases h1
    cases h
    exact ⟨hb, _, _, _, _, _, _, proof, rfl, h2, C55_shares_add_up _ _,
      (C55_first_share_is_randomness _ _).1, (C55_first_share_is_randomness _ _).2⟩

/-- C55. The same for what a client that does not misbehave sends in `add_reports`, whichever report it picks. -/
theorem C55_picked {buckets : Nat} {reports : List PlaintextReport} {i : Nat} {sh : ReportShare × ReportShare}
    (hr : ∀ rep ∈ reports, ∃ alpha bucket r, genMasticReport P buckets alpha bucket r = .ok rep)
    (h : pickShares reports (i, none) = .ok sh) :
    ∃ (r : ClientRand) (bucket : Nat) (n : Block) (k0 k1 : VidpfKey) (p0 p1 : List Field128) (jr : Block × Block)
      (proof : List Field128), bucket < buckets ∧
      sh = (.mastic n k0 p0 jr, .mastic n k1 p1 jr) ∧
      P.flpProve buckets ((List.replicate buckets 0).set bucket 1) r.proveRand
        (P.xofField jr.1 jr.2.toList (P.jointRandLen buckets)) = some proof ∧
      Spec.addShares p0 p1 = proof ∧ p0 = (List.range proof.length).map r.proofRand := by
  unfold pickShares at h
  dsimp only at h
  split at h
  · cases h
  · obtain ⟨rep, h1, h⟩ := bind_eq_ok.1 h
    cases h
    rw [idx_eq_ok] at h1
    obtain ⟨alpha, bucket, r, hg⟩ := hr rep (List.mem_of_getElem? h1)
    obtain ⟨hb, n, k0, k1, p0, p1, jr, proof, e, hp, ha, h0, -⟩ := C55_sent hg
    exact ⟨r, bucket, n, k0, k1, p0, p1, jr, proof, hb, e, hp, ha, h0⟩

example : ∃ rep sh, genMasticReport toy 2 [true, false] 1 (toyRand 1) = .ok rep ∧
    pickShares [rep] (1, none) = .ok sh ∧
    ∃ n k0 k1 p0 p1 jr, sh = (.mastic n k0 p0 jr, .mastic n k1 p1 jr) ∧ p0.length = 2 := by
  obtain ⟨rep, h1, -⟩ := bind_eq_ok.1 (show (genMasticReport toy 2 [true, false] 1 (toyRand 1) >>= fun rep =>
    (.ok (rep.toShares.1.nonce == rep.toShares.2.nonce) : Exec Bool)) = .ok true by decide +kernel)
  obtain ⟨-, n, k0, k1, p0, p1, jr, proof, e, hp, -, h0, -⟩ := C55_sent h1
  refine ⟨rep, rep.toShares, h1, rfl, n, k0, k1, p0, p1, jr, e, ?_⟩
  rw [h0, List.length_map, List.length_range]
  exact toy_proofLen 2 _ _ _ _ hp

end Mastic
