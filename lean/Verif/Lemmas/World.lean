import Verif.Lemmas.Replies
import Verif.Lemmas.Collude
import Verif.Props.Whh

/-!
# Lemmas: the answers of both servers in one run, and in two runs
-/

namespace Mastic

variable {P Q Q' : Prims}

/-- The sum of all value shares is that of a node. -/
theorem nodeSum_aggAt {n : Nat} {reports : List (Bool × ReportShare)} {node : TreeNode}
    (h : ∀ br ∈ reports, ∃ key v, Spec.keyOf br.2 = some key ∧ Spec.valueAt P key n node.path = some v)
    (hv : node.value = aggAt P n reports node.path) : Spec.NodeSum P n reports node := by
  refine ⟨_, ?_, hv⟩
  have h : ∀ ir ∈ Spec.included reports, ∃ key v, Spec.keyOf ir.2 = some key ∧ Spec.valueAt P key n node.path = some v :=
    fun ir hir => h _ (List.mem_of_getElem? (mem_included hir))
  generalize Spec.included reports = L at h ⊢
  induction L with
  | nil => exact .nil
  | cons a L ih =>
    obtain ⟨key, v, h1, h2⟩ := h a (List.mem_cons_self ..)
    rw [List.filterMap_cons, h1]
    simp only [Option.bind_some, h2]
    exact .cons ⟨key, h1, h2⟩ (ih fun ir hir => h ir (List.mem_cons_of_mem _ hir))

/-- The answers of a run with honest clients: what they are made of. -/
structure World (P : Prims) (n d T : Nat) (id0 id1 : Int) (vk : Block) (clients : List (List Bool × Nat))
    (s0 s1 : List ReportShare) (ver0 ver1 : List (List Field128)) (rs : Nat → List (Block × Nat)) : Prop where
  ver0 : s0.map (Spec.verifierOf P n id0 vk) = ver0.map some
  ver1 : s1.map (Spec.verifierOf P n id1 vk) = ver1.map some
  reach0 : KeysReach (d - 1) (s0.map fun s => (true, s))
  reach1 : KeysReach (d - 1) (s1.map fun s => (true, s))
  roots0 : ∀ m < d - 1, merkleRoots P (Spec.digests P n true (Spec.heavyAt T (clients.map fun c => some c.1) m)
    (s0.map fun s => (true, s))) 1 [] false = .ok (rs m)
  roots1 : ∀ m < d - 1, merkleRoots P (Spec.digests P n false (Spec.heavyAt T (clients.map fun c => some c.1) m)
    (s1.map fun s => (true, s))) 1 [] false = .ok (rs m)
  proofs : lastProofs P n (s0.map fun s => (true, s)) (Spec.heavyAt T (clients.map fun c => some c.1) (d - 1))
    = lastProofs P n (s1.map fun s => (true, s)) (Spec.heavyAt T (clients.map fun c => some c.1) (d - 1))
  sums : ∀ p, p ≠ [] → p.length ≤ d → Spec.addShares (aggAt P n (s0.map fun s => (true, s)) p)
      (aggAt P n (s1.map fun s => (true, s)) p)
    = Spec.histogram n ((Spec.holders clients p).map Prod.snd) ++ [(((Spec.holders clients p).length : Nat) : Field128)]
  len0 : ∀ p, p ≠ [] → p.length ≤ d → (aggAt P n (s0.map fun s => (true, s)) p).length = n + 1
  len1 : ∀ p, p ≠ [] → p.length ≤ d → (aggAt P n (s1.map fun s => (true, s)) p).length = n + 1

theorem world_of_population {n d T : Nat} {id0 id1 : Int} {vk : Block} {clients : List (List Bool × Nat)}
    {s0 s1 : List ReportShare} (h0 : id0 = 0) (h1 : id1 ≠ 0) (hd : 1 ≤ d) (hne : clients ≠ [])
    (hp : Spec.Population P n d id0 id1 vk (clients.map some) (s0.map fun s => (true, s)) (s1.map fun s => (true, s))) :
    ∃ ver0 ver1 rs, World P n d T id0 id1 vk clients s0 s1 ver0 ver1 rs := by
  have hM := mixed_of_population hp
  have hrep : (clients.map some).map Option.isSome = List.replicate clients.length true := by
    rw [List.map_map, List.eq_replicate_iff]; simp
  have l0 : s0.length = clients.length := by simpa using hp.1
  have l1 : s1.length = clients.length := by simpa using hp.2.1
  rw [hrep, masked_all (by simpa using l0), masked_all (by simpa using l1)] at hM
  have hinc := included_ne hM (by simpa [List.filterMap_map] using hne)
  obtain ⟨hq, hw0, hw1, hF⟩ := hM.facts
  rw [show (clients.map some).filterMap id = clients by simp [List.filterMap_map]] at hF
  have r0 := wellFormed_reach hd hw0
  have r1 := wellFormed_reach hd hw1
  have hpair : ∀ i (hi : i < clients.length), Spec.HonestPair P n clients[i].1 clients[i].2 (s0[i]'(l0 ▸ hi))
      (s1[i]'(l1 ▸ hi)) ∧ clients[i].1.length = d ∧
      Spec.FlpCompleteAt P n (P.xofField vk (s0[i]'(l0 ▸ hi)).nonce.toList (P.queryRandLen n)) := by
    intro i hi
    exact (hp.2.2 i (some clients[i]) true true (s0[i]'(l0 ▸ hi)) (s1[i]'(l1 ▸ hi))
      (by rw [List.getElem?_map, List.getElem?_eq_getElem hi]; rfl)
      (by rw [List.getElem?_map, List.getElem?_eq_getElem (l0 ▸ hi)]; rfl)
      (by rw [List.getElem?_map, List.getElem?_eq_getElem (l1 ▸ hi)]; rfl)).2.2
  have hver : ∀ i (hi : i < clients.length), ∃ v : List Field128 × List Field128,
      Spec.verifierOf P n id0 vk (s0[i]'(l0 ▸ hi)) = some v.1 ∧ Spec.verifierOf P n id1 vk (s1[i]'(l1 ▸ hi)) = some v.2 := by
    intro i hi
    obtain ⟨g1, g2, g3⟩ := hpair i hi
    obtain ⟨v0, v1, e0, e1, -⟩ := honest_verifiers h0 h1 (by rintro e; rw [e] at g2; simp at g2; omega) g1 g3
    exact ⟨(v0, v1), e0, e1⟩
  choose v hv using hver
  have hval : ∀ p, p ≠ [] → p.length ≤ d → ∀ i (hi : i < clients.length), ∃ k0 k1 v0 v1,
      Spec.keyOf (s0[i]'(l0 ▸ hi)) = some k0 ∧ Spec.valueAt P k0 n p = some v0 ∧
      Spec.keyOf (s1[i]'(l1 ▸ hi)) = some k1 ∧ Spec.valueAt P k1 n p = some v1 := by
    intro p hp hl i hi
    obtain ⟨g1, g2, -⟩ := hpair i hi
    obtain ⟨nonce, rs, beta, pr, proof, rand, hb, -, e0, e1⟩ := honestPair_parts g1
    obtain ⟨v0, v1, a0, a1, -⟩ := honest_values P rs clients[i].1 beta p hp (by omega)
    rw [(encodeMeasurement_length hb).1] at a0 a1
    exact ⟨_, _, v0, v1, by rw [e0]; rfl, a0, by rw [e1]; rfl, a1⟩
  have hsum : ∀ p, p ≠ [] → p.length ≤ d →
      Spec.NodeSum P n (s0.map fun s => (true, s)) ⟨p, aggAt P n (s0.map fun s => (true, s)) p, [], []⟩ ∧
      Spec.NodeSum P n (s1.map fun s => (true, s)) ⟨p, aggAt P n (s1.map fun s => (true, s)) p, [], []⟩ := by
    intro p hp hl
    constructor
    · refine nodeSum_aggAt (fun br hbr => ?_) rfl
      obtain ⟨s, hs, rfl⟩ := List.mem_map.1 hbr
      obtain ⟨i, hi, rfl⟩ := List.getElem_of_mem hs
      obtain ⟨k0, k1, v0, v1, a, b, -⟩ := hval p hp hl i (l0 ▸ hi)
      exact ⟨k0, v0, a, b⟩
    · refine nodeSum_aggAt (fun br hbr => ?_) rfl
      obtain ⟨s, hs, rfl⟩ := List.mem_map.1 hbr
      obtain ⟨i, hi, rfl⟩ := List.getElem_of_mem hs
      obtain ⟨k0, k1, v0, v1, -, -, a, b⟩ := hval p hp hl i (l1 ▸ hi)
      exact ⟨k1, v1, a, b⟩
  have hlen : ∀ m, ∀ p ∈ Spec.heavyAt T (clients.map fun c => some c.1) m, p.length = m :=
    fun m p hp => mem_allPaths.1 (List.mem_filter.1 hp).1
  have hnd : ∀ m, (Spec.heavyAt T (clients.map fun c => some c.1) m).Nodup := fun m => (allPaths_nodup m).filter _
  have hroot : ∀ m, ∃ rs, merkleRoots P (Spec.digests P n true (Spec.heavyAt T (clients.map fun c => some c.1) m)
      (s0.map fun s => (true, s))) 1 [] false = .ok rs := fun m =>
    ⟨_, (merkleRoots_one (digests_ne r0 hinc) [] false).choose_spec⟩
  choose rs hrs using hroot
  refine ⟨List.ofFn fun i : Fin clients.length => (v i i.2).1, List.ofFn fun i : Fin clients.length => (v i i.2).2, rs,
    ?_, ?_, r0, r1, fun m _ => hrs m, ?_, ?_, ?_, ?_, ?_⟩
  · refine List.ext_getElem (by simp [l0]) fun i hi _ => ?_
    have hi : i < clients.length := by simpa [l0] using hi
    simp only [List.getElem_map, List.getElem_ofFn]
    exact (hv i hi).1
  · refine List.ext_getElem (by simp [l1]) fun i hi _ => ?_
    have hi : i < clients.length := by simpa [l1] using hi
    simp only [List.getElem_map, List.getElem_ofFn]
    exact (hv i hi).2
  · intro m hm
    rw [← digests_quiet (d := d) (r0 := s0.map fun s => (true, s)) (m := m)
      ⟨hq.1, fun i a b x y => by obtain ⟨k0, k1, e0, e1, q⟩ := hq.2 i a b x y; exact ⟨k0, k1, e0, e1, q.1⟩⟩
      (by omega) (hnd m) (hlen m)]
    exact hrs m
  · exact proofs_quiet hq (hnd _) fun p hp => by rw [hlen _ p hp]; omega
  · intro p hp hl
    obtain ⟨a, b⟩ := hsum p hp hl
    rw [← tally_clients hF hp hl]
    exact tally_eq (by exact rfl) hp hq.1 a b
  · intro p hp hl
    exact nodeSum_length hp (hsum p hp hl).1
  · intro p hp hl
    exact nodeSum_length hp (hsum p hp hl).2

/-- If the server `own` computes the same verifier share, so does the other server. -/
theorem other_verifier {n b b' : Nat} (hn : n < 2 ^ 64) {x x' : List Field128} (hx : encodeMeasurement n b = some x)
    (hx' : encodeMeasurement n b' = some x') {alpha : List Bool} (ha : alpha ≠ []) (own : Bool) {rs : Block × Block}
    {nonce vk : Block} {r0 r1 t : Field128}
    (hj : P.xofField (seedParts P rs nonce).1 (seedParts P rs nonce).2.toList 2 = [r0, r1])
    (ht : P.xofField vk nonce.toList 1 = [t]) {aes aes' : Block → Block} (hQ : Q = { P.withHistogram with aes := aes })
    (hQ' : Q' = { P.withHistogram with aes := aes' }) (hgen : VidpfKey.gen Q' rs alpha x' = VidpfKey.gen Q rs alpha x)
    {w w' : Spec.KeyCoins P.withHistogram rs alpha n} (hw' : w' = moveCoins own x x' r0 t w)
    {ps ps' : List Field128 × List Field128}
    (hps : ps = shareProof (proofOf n 2 x (List.ofFn w.2.1) r0) (Spec.coinsRand nonce w).proofRand)
    (hps' : ps' = shareProof (proofOf n 2 x' (List.ofFn w'.2.1) r0) (Spec.coinsRand nonce w').proofRand)
    {id0 id1 : Int} (h0 : id0 = 0) (h1 : id1 ≠ 0)
    (hown : Spec.verifierOf Q' n (Pair.get (id0, id1) own) vk (.mastic nonce
        (Pair.get (VidpfKey.gen Q rs alpha x) own) (Pair.get ps own) (seedParts P rs nonce))
      = Spec.verifierOf Q n (Pair.get (id0, id1) own) vk (.mastic nonce (Pair.get (VidpfKey.gen Q rs alpha x) own)
        (Pair.get ps own) (seedParts P rs nonce))) :
    Spec.verifierOf Q' n (Pair.get (id0, id1) (!own)) vk (.mastic nonce
        (Pair.get (VidpfKey.gen Q rs alpha x) (!own)) (Pair.get ps' (!own)) (seedParts P rs nonce))
      = Spec.verifierOf Q n (Pair.get (id0, id1) (!own)) vk (.mastic nonce
        (Pair.get (VidpfKey.gen Q rs alpha x) (!own)) (Pair.get ps (!own)) (seedParts P rs nonce)) := by
  have lx := (encodeMeasurement_length hx).1
  have lx' := (encodeMeasurement_length hx').1
  have hpo : Pair.get ps' own = Pair.get ps own := by
    rw [hps, hps', hw']; exact shareProof_moved own x x' r0 t nonce w
  obtain ⟨y0, y1, hy, hver⟩ := gen_verifiers (P := Q) (id0 := id0) (id1 := id1) h0 h1 ha lx nonce rs
  obtain ⟨y0', y1', hy', hver'⟩ := gen_verifiers (P := Q') (id0 := id0) (id1 := id1) h0 h1 ha lx' nonce rs
  have hver := hver vk ps.1 ps.2 (seedParts P rs nonce) (by rw [hQ]; rfl)
  have hver' := hver' vk ps'.1 ps'.2 (seedParts P rs nonce) (by rw [hQ']; rfl)
  have eQ : ∀ y p, Q.flpQuery n y p (Q.xofField vk nonce.toList (Q.queryRandLen n)) (Q.xofField
      (seedParts P rs nonce).1 (seedParts P rs nonce).2.toList (Q.jointRandLen n))
      = histQuery n 2 y p [t] [r0, r1] 2 := fun y p => by rw [hQ, ← hj, ← ht]; rfl
  have eQ' : ∀ y p, Q'.flpQuery n y p (Q'.xofField vk nonce.toList (Q'.queryRandLen n)) (Q'.xofField
      (seedParts P rs nonce).1 (seedParts P rs nonce).2.toList (Q'.jointRandLen n))
      = histQuery n 2 y p [t] [r0, r1] 2 := fun y p => by rw [hQ', ← hj, ← ht]; rfl
  rw [eQ, eQ] at hver
  rw [eQ', eQ', hgen] at hver'
  have hl : ∀ (x : List Field128) (w : Spec.KeyCoins P.withHistogram rs alpha n),
      (proofOf n 2 x (List.ofFn w.2.1) r0).length = histProofLen n 2 := fun x w => proofOf_length (by simp)
  have hps0 : Spec.Shares (proofOf n 2 x (List.ofFn w.2.1) r0) ps.1 ps.2 := by
    rw [hps]; exact ⟨(shareProof_length _ _).1, (shareProof_length _ _).2, shareProof_add _ _⟩
  have hps1 : Spec.Shares (proofOf n 2 x' (List.ofFn w'.2.1) r0) ps'.1 ps'.2 := by
    rw [hps']; exact ⟨(shareProof_length _ _).1, (shareProof_length _ _).2, shareProof_add _ _⟩
  by_cases hroot : t ^ wireLen n 2 = 1
  · have hnone : ∀ y p, histQuery n 2 y p [t] [r0, r1] 2 = none := by
      intro y p
      rw [Option.eq_none_iff_forall_ne_some]
      intro v e
      exact (histQuery_some.1 e).2.2.1 hroot
    rw [hnone, hnone] at hver hver'
    cases own with
    | false => exact hver'.2.trans hver.2.symm
    | true => exact hver'.1.trans hver.1.symm
  · have q : ∀ y p, y.length = n → p.length = histProofLen n 2 → histQuery n 2 y p [t] [r0, r1] 2
        = some (histVer n 2 y p t r0 r1 ((2 : Nat) : Field128)⁻¹) :=
      fun y p hy hp => histQuery_some.2 ⟨hy, hp, hroot, rfl⟩
    rw [q y0 _ (hy.1.trans lx) (hps0.1.trans (hl _ _)), q y1 _ (hy.2.1.trans lx) (hps0.2.1.trans (hl _ _))] at hver
    rw [q y0' _ (hy'.1.trans lx') (hps1.1.trans (hl _ _)),
      q y1' _ (hy'.2.1.trans lx') (hps1.2.1.trans (hl _ _))] at hver'
    have tot := histVer_add (n := n) (c := 2) (hy.1.trans hy.2.1.symm) (hps0.1.trans hps0.2.1.symm) t r0 r1
      ((2 : Nat) : Field128)⁻¹ ((2 : Nat) : Field128)⁻¹
    have tot' := histVer_add (n := n) (c := 2) (hy'.1.trans hy'.2.1.symm) (hps1.1.trans hps1.2.1.symm) t r0 r1
      ((2 : Nat) : Field128)⁻¹ ((2 : Nat) : Field128)⁻¹
    rw [hy.2.2, hps0.2.2, half_add_half_field] at tot
    have hsh := shifted_verifier (n := n) (c := 2) (by norm_num) (wireLog_le (by norm_num) hn) (x := x) (x' := x')
      (pr := List.ofFn w.2.1) (t := t) (r0 := r0) (r1 := r1) lx lx' (by simp)
      (histogramCheck_oneHot (oneHot_iff.2 ⟨b, hx⟩) _ _) (histogramCheck_oneHot (oneHot_iff.2 ⟨b', hx'⟩) _ _) hroot
    have hpr : List.ofFn w'.2.1 = shiftSeeds n 2 x x' r0 t (List.ofFn w.2.1) := by
      rw [hw']; exact moveCoins_prove own x x' r0 t w
    rw [hy'.2.2, hps1.2.2, half_add_half_field, hpr, hsh, ← tot] at tot'
    cases own with
    | false =>
      have h0 : histVer n 2 y0' ps'.1 t r0 r1 ((2 : Nat) : Field128)⁻¹
          = histVer n 2 y0 ps.1 t r0 r1 ((2 : Nat) : Field128)⁻¹ := by
        have h1 := hver'.1
        rw [show ps'.1 = ps.1 from hpo] at h1 ⊢
        exact Option.some.inj (h1.symm.trans (hown.trans hver.1))
      rw [h0] at tot'
      have h1 := addShares_cancel (by simp only [histVer_length]) (by simp only [histVer_length]) tot'
      exact hver'.2.trans ((congrArg some h1).trans hver.2.symm)
    | true =>
      have h0 : histVer n 2 y1' ps'.2 t r0 r1 ((2 : Nat) : Field128)⁻¹
          = histVer n 2 y1 ps.2 t r0 r1 ((2 : Nat) : Field128)⁻¹ := by
        have h1 := hver'.2
        rw [show ps'.2 = ps.2 from hpo] at h1 ⊢
        exact Option.some.inj (h1.symm.trans (hown.trans hver.2))
      rw [h0] at tot'
      have h1 := addShares_cancel' (by simp only [histVer_length]) (by simp only [histVer_length]) tot'
      exact hver'.1.trans ((congrArg some h1).trans hver.1.symm)

/-! ### The same evaluations -/

/-- The keys of the reports give the same under both ciphers at the given strings. -/
def SameEvals (Q Q' : Prims) (n : Nat) (reports : List (Bool × ReportShare)) (paths : List (List Bool)) : Prop :=
  ∀ br ∈ reports, ∀ key, Spec.keyOf br.2 = some key → ∀ p ∈ paths, Spec.evalPath Q' key n p = Spec.evalPath Q key n p

theorem SameEvals.value {n : Nat} {reports : List (Bool × ReportShare)} {paths : List (List Bool)}
    (h : SameEvals Q Q' n reports paths) {ir : Nat × ReportShare} (hir : ir ∈ Spec.included reports) {key : VidpfKey}
    (hk : Spec.keyOf ir.2 = some key) {p : List Bool} (hp : p ∈ paths) :
    Spec.valueAt Q' key n p = Spec.valueAt Q key n p ∧ Spec.proofAt Q' key n p = Spec.proofAt Q key n p := by
  have := h _ (List.mem_of_getElem? (mem_included hir)) key hk p hp
  unfold Spec.valueAt Spec.proofAt
  rw [this]
  exact ⟨rfl, rfl⟩

theorem SameEvals.agg {n : Nat} {reports : List (Bool × ReportShare)} {paths : List (List Bool)}
    (h : SameEvals Q Q' n reports paths) {p : List Bool} (hp : p ∈ paths) :
    aggAt Q' n reports p = aggAt Q n reports p := by
  unfold aggAt
  congr 1
  refine List.filterMap_congr fun ir hir => ?_
  cases hk : Spec.keyOf ir.2 with
  | none => rfl
  | some key => exact (h.value hir hk hp).1

theorem SameEvals.proofs {n : Nat} {reports : List (Bool × ReportShare)} {paths ps : List (List Bool)}
    (h : SameEvals Q Q' n reports paths) (hps : ∀ p ∈ ps, ∀ b, p ++ [b] ∈ paths) {ir : Nat × ReportShare}
    (hir : ir ∈ Spec.included reports) {key : VidpfKey} (hk : Spec.keyOf ir.2 = some key) :
    Spec.proofsAt Q' n key ps = Spec.proofsAt Q n key ps := by
  unfold Spec.proofsAt
  congr 1
  refine List.flatMap_congr fun p hp => ?_
  rw [(h.value hir hk (hps p hp false)).2, (h.value hir hk (hps p hp true)).2]

theorem SameEvals.last {n : Nat} {reports : List (Bool × ReportShare)} {paths ps : List (List Bool)}
    (h : SameEvals Q Q' n reports paths) (hps : ∀ p ∈ ps, ∀ b, p ++ [b] ∈ paths) :
    lastProofs Q' n reports ps = lastProofs Q n reports ps := by
  unfold lastProofs
  refine List.filterMap_congr fun ir hir => ?_
  cases hk : Spec.keyOf ir.2 with
  | none => rfl
  | some key => simp only [Option.map_some, h.proofs hps hir hk]

theorem SameEvals.digests {n : Nat} {reports : List (Bool × ReportShare)} {paths ps : List (List Bool)}
    (h : SameEvals Q Q' n reports paths) (hps : ∀ p ∈ ps, ∀ b, p ++ [b] ∈ paths) (hpp : ∀ p ∈ ps, p ≠ [] → p ∈ paths)
    (hb : Q'.blake3 = Q.blake3) (first : Bool) :
    Spec.digests Q' n first ps reports = Spec.digests Q n first ps reports := by
  unfold Spec.digests
  refine List.filterMap_congr fun ir hir => ?_
  cases hk : Spec.keyOf ir.2 with
  | none => rfl
  | some key =>
    simp only [Option.map_some, Spec.digestAt, h.proofs hps hir hk, hb]
    congr 5
    refine List.flatMap_congr fun p hp => ?_
    unfold Spec.prefixCheck
    by_cases hne : p = []
    · subst hne
      have a := (h.value hir hk (hps [] hp false)).1
      have b := (h.value hir hk (hps [] hp true)).1
      rw [List.nil_append] at a b
      simp only [if_true, a, b]
    · simp only [if_neg hne, (h.value hir hk (hps p hp false)).1, (h.value hir hk (hps p hp true)).1,
        (h.value hir hk (hpp p hp hne)).1]

theorem merkleLayer_congr (hb : Q'.blake3 = Q.blake3) : ∀ l, merkleLayer Q' l = merkleLayer Q l
  | a :: b :: rest => by rw [merkleLayer, merkleLayer, merkleLayer_congr hb rest]; unfold hashAlg; rw [hb]
  | [a] => rfl
  | [] => rfl

theorem merkleUp_congr (hb : Q'.blake3 = Q.blake3) : ∀ (fuel : Nat) (l : List Block), merkleUp Q' fuel l = merkleUp Q fuel l
  | _, [] => by simp [merkleUp]
  | _, [a] => by simp [merkleUp]
  | 0, _ :: _ :: _ => rfl
  | fuel + 1, a :: b :: rest => by
    rw [merkleUp, merkleUp, merkleLayer_congr hb, merkleUp_congr hb fuel]

theorem merkleRoots_congr (hb : Q'.blake3 = Q.blake3) (hc : Q'.ceilLog2 = Q.ceilLog2) (l : List Block) (s : Nat)
    (ms : List Nat) (last : Bool) : merkleRoots Q' l s ms last = merkleRoots Q l s ms last := by
  have h : merkleRoot Q' = merkleRoot Q := funext fun l => merkleUp_congr hb _ _
  unfold merkleRoots merkleForSuspect
  rw [h, hc]

/-! ### Two worlds -/

theorem askedAt_kids {T d m : Nat} {strings : List (Option (List Bool))} (hm : m < d) {q : List Bool}
    (h : q ∈ kids (Spec.heavyAt T strings m)) : q ∈ Spec.askedAt T d strings :=
  List.mem_flatMap.2 ⟨m, List.mem_range.2 hm, h⟩

theorem askedAt_child {T d m : Nat} {strings : List (Option (List Bool))} (hm : m < d) {p : List Bool}
    (h : p ∈ Spec.heavyAt T strings m) (b : Bool) : p ++ [b] ∈ Spec.askedAt T d strings :=
  askedAt_kids hm (List.mem_flatMap.2 ⟨p, h, by cases b <;> simp⟩)

theorem askedAt_heavy {T d m : Nat} {strings : List (Option (List Bool))} (hm : m ≤ d) {p : List Bool}
    (h : p ∈ Spec.heavyAt T strings m) (hne : p ≠ []) : p ∈ Spec.askedAt T d strings := by
  cases m with
  | zero => simp [heavyAt_zero] at h; exact absurd h hne
  | succ m =>
    rw [heavyAt_succ] at h
    exact askedAt_kids (by omega) (List.mem_filter.1 h).1

theorem askedAt_length {T d : Nat} {strings : List (Option (List Bool))} {q : List Bool}
    (h : q ∈ Spec.askedAt T d strings) : q ≠ [] ∧ q.length ≤ d := by
  obtain ⟨m, hm, h⟩ := List.mem_flatMap.1 h
  have := kids_len (m := m) (fun p hp => mem_allPaths.1 (List.mem_filter.1 hp).1) q h
  have hm := List.mem_range.1 hm
  exact ⟨by rintro rfl; simp at this, by omega⟩

theorem whhReplies_congr {T b d : Nat} {strings : List (Option (List Bool))} {ver ver' : List (List Field128)}
    {agg agg' : List Bool → List Field128} {rs rs' : Nat → List (Block × Nat)} {pf pf' : List Block} (hd : 1 ≤ d)
    (hv : ver' = ver) (ha : ∀ q ∈ Spec.askedAt T d strings, agg' q = agg q) (hr : ∀ m < d - 1, rs' m = rs m)
    (hp : pf' = pf) :
    whhReplies T b d strings ver' agg' rs' pf' = whhReplies T b d strings ver agg rs pf := by
  subst hv hp
  unfold whhReplies
  have e1 : ∀ m < d, (kids (Spec.heavyAt T strings m)).map agg' = (kids (Spec.heavyAt T strings m)).map agg :=
    fun m hm => List.map_congr_left fun q hq => ha q (askedAt_kids hm hq)
  have e2 : (List.range (d - 1)).flatMap (fun m => [crawlReply ((kids (Spec.heavyAt T strings m)).map agg') (rs' m), .done])
      = (List.range (d - 1)).flatMap (fun m => [crawlReply ((kids (Spec.heavyAt T strings m)).map agg) (rs m), .done]) := by
    refine List.flatMap_congr fun m hm => ?_
    have hm := List.mem_range.1 hm
    rw [e1 m (by omega), hr m hm]
  have e3 : (Spec.heavyAt T strings d).map (fun p => (⟨p, agg' p⟩ : HHResult))
      = (Spec.heavyAt T strings d).map fun p => ⟨p, agg p⟩ := by
    refine List.map_congr_left fun q hq => ?_
    rw [ha q (askedAt_heavy le_rfl hq ?_)]
    have := mem_allPaths.1 (List.mem_filter.1 hq).1
    rintro rfl
    simp at this
    omega
  rw [e1 (d - 1) (by omega), e2, e3]

theorem holders_length {clients clients' : List (List Bool × Nat)} (h : clients'.map Prod.fst = clients.map Prod.fst)
    (p : List Bool) : (Spec.holders clients' p).length = (Spec.holders clients p).length := by
  have key : ∀ l : List (List Bool × Nat), (Spec.holders l p).length = (l.map Prod.fst).countP fun a => p.isPrefixOf a := by
    intro l
    unfold Spec.holders
    rw [List.countP_map, List.countP_eq_length_filter]
    rfl
  rw [key, key, h]

/-- In two worlds that look the same to the server `own` both servers give the same answers. -/
theorem worlds_same {n d T b : Nat} {id0 id1 : Int} {vk : Block} {clients clients' : List (List Bool × Nat)}
    {s0 s1 s0' s1' : List ReportShare} {ver0 ver1 ver0' ver1' : List (List Field128)} {rs rs' : Nat → List (Block × Nat)}
    (own : Bool) (hd : 1 ≤ d) (W : World Q n d T id0 id1 vk clients s0 s1 ver0 ver1 rs)
    (W' : World Q' n d T id0 id1 vk clients' s0' s1' ver0' ver1' rs')
    (hstr : clients'.map Prod.fst = clients.map Prod.fst)
    (hown : Pair.get (s0', s1') own = Pair.get (s0, s1) own)
    (hsame : SameEvals Q Q' n ((Pair.get (s0, s1) own).map fun s => (true, s))
      (Spec.askedAt T d (clients.map fun c => some c.1)))
    (hb : Q'.blake3 = Q.blake3) (hc : Q'.ceilLog2 = Q.ceilLog2)
    (hv0 : s0'.map (Spec.verifierOf Q' n id0 vk) = s0.map (Spec.verifierOf Q n id0 vk))
    (hv1 : s1'.map (Spec.verifierOf Q' n id1 vk) = s1.map (Spec.verifierOf Q n id1 vk))
    (hh : ∀ p ∈ Spec.askedAt T d (clients.map fun c => some c.1), Spec.histogram n ((Spec.holders clients' p).map Prod.snd)
      = Spec.histogram n ((Spec.holders clients p).map Prod.snd)) :
    whhReplies T b d (clients.map fun c => some c.1) ver0' (aggAt Q' n (s0'.map fun s => (true, s))) rs'
        (lastProofs Q' n (s0'.map fun s => (true, s)) (Spec.heavyAt T (clients.map fun c => some c.1) (d - 1)))
      = whhReplies T b d (clients.map fun c => some c.1) ver0 (aggAt Q n (s0.map fun s => (true, s))) rs
        (lastProofs Q n (s0.map fun s => (true, s)) (Spec.heavyAt T (clients.map fun c => some c.1) (d - 1))) ∧
    whhReplies T b d (clients.map fun c => some c.1) ver1' (aggAt Q' n (s1'.map fun s => (true, s))) rs'
        (lastProofs Q' n (s1'.map fun s => (true, s)) (Spec.heavyAt T (clients.map fun c => some c.1) (d - 1)))
      = whhReplies T b d (clients.map fun c => some c.1) ver1 (aggAt Q n (s1.map fun s => (true, s))) rs
        (lastProofs Q n (s1.map fun s => (true, s)) (Spec.heavyAt T (clients.map fun c => some c.1) (d - 1))) := by
  have hstr' : (clients'.map fun c => some c.1) = clients.map fun c => some c.1 := by
    have := congrArg (List.map some) hstr
    simpa [List.map_map, Function.comp_def] using this
  have inj : Function.Injective (List.map (some : List Field128 → _)) := (Option.some_injective _).list_map
  have v0 : ver0' = ver0 := inj (by rw [← W'.ver0, ← W.ver0, hv0])
  have v1 : ver1' = ver1 := inj (by rw [← W'.ver1, ← W.ver1, hv1])
  have r0' := W'.roots0
  have r1' := W'.roots1
  have p' := W'.proofs
  rw [hstr'] at r0' r1' p'
  have tot : ∀ q ∈ Spec.askedAt T d (clients.map fun c => some c.1),
      Spec.addShares (aggAt Q' n (s0'.map fun s => (true, s)) q) (aggAt Q' n (s1'.map fun s => (true, s)) q)
        = Spec.addShares (aggAt Q n (s0.map fun s => (true, s)) q) (aggAt Q n (s1.map fun s => (true, s)) q) := by
    intro q hq
    obtain ⟨a, b⟩ := askedAt_length hq
    rw [W.sums q a b, W'.sums q a b, hh q hq, holders_length hstr]
  have hkid : ∀ m < d, ∀ p ∈ Spec.heavyAt T (clients.map fun c => some c.1) m, ∀ b,
      p ++ [b] ∈ Spec.askedAt T d (clients.map fun c => some c.1) := fun m hm p hp b => askedAt_child hm hp b
  have hpre : ∀ m < d, ∀ p ∈ Spec.heavyAt T (clients.map fun c => some c.1) m, p ≠ [] →
      p ∈ Spec.askedAt T d (clients.map fun c => some c.1) := fun m hm p hp hne => askedAt_heavy hm.le hp hne
  cases own with
  | false =>
    obtain rfl : s0' = s0 := hown
    have hsame : SameEvals Q Q' n (s0'.map fun s => (true, s)) (Spec.askedAt T d (clients.map fun c => some c.1)) := hsame
    have hr : ∀ m < d - 1, rs' m = rs m := by
      intro m hm
      have a := r0' m hm
      have b := W.roots0 m hm
      rw [merkleRoots_congr hb hc, hsame.digests (hkid m (by omega)) (hpre m (by omega)) hb, b] at a
      exact (Except.ok.inj a).symm
    have hl := hsame.last (hkid (d - 1) (by omega))
    refine ⟨whhReplies_congr hd v0 (fun q hq => hsame.agg hq) hr hl,
      whhReplies_congr hd v1 (fun q hq => ?_) hr (by rw [← p', hl, W.proofs])⟩
    obtain ⟨a, b⟩ := askedAt_length hq
    have := tot q hq
    rw [hsame.agg hq] at this
    exact addShares_cancel (by rw [W.len0 q a b, W'.len1 q a b]) (by rw [W.len0 q a b, W.len1 q a b]) this
  | true =>
    obtain rfl : s1' = s1 := hown
    have hsame : SameEvals Q Q' n (s1'.map fun s => (true, s)) (Spec.askedAt T d (clients.map fun c => some c.1)) := hsame
    have hr : ∀ m < d - 1, rs' m = rs m := by
      intro m hm
      have a := r1' m hm
      have b := W.roots1 m hm
      rw [merkleRoots_congr hb hc, hsame.digests (hkid m (by omega)) (hpre m (by omega)) hb, b] at a
      exact (Except.ok.inj a).symm
    have hl := hsame.last (hkid (d - 1) (by omega))
    refine ⟨whhReplies_congr hd v0 (fun q hq => ?_) hr (by rw [p', hl, ← W.proofs]),
      whhReplies_congr hd v1 (fun q hq => hsame.agg hq) hr hl⟩
    obtain ⟨a, b⟩ := askedAt_length hq
    have := tot q hq
    rw [hsame.agg hq] at this
    exact addShares_cancel' (by rw [W.len1 q a b, W'.len0 q a b]) (by rw [W.len1 q a b, W.len0 q a b]) this

/-! ### The conversation of one world -/

theorem heavyAt_ne {T k : Nat} {strings : List (Option (List Bool))} (h : Spec.heavyAt T strings k ≠ []) :
    ∀ m ≤ k, Spec.heavyAt T strings m ≠ [] := by
  intro m hm he
  obtain ⟨j, rfl⟩ := Nat.exists_eq_add_of_le hm
  clear hm
  apply h
  clear h
  induction j with
  | zero => exact he
  | succ j ih => rw [← Nat.add_assoc, heavyAt_succ, ih]; rfl

variable {c0 c1 : ServerCfg} {bld : Build} {cfg : Config} {draw : MainDraw} {n d : Nat}

theorem runClients_strings (d : Nat) (draw : MainDraw) (weight : Nat → Nat) (n : Nat) :
    (Spec.runClients d draw weight n).map Prod.fst = Spec.runStrings d draw n := by
  simp [Spec.runClients, Spec.runStrings, Function.comp_def]

theorem runClients_some (d : Nat) (draw : MainDraw) (weight : Nat → Nat) (n : Nat) :
    ((Spec.runClients d draw weight n).map fun c => some c.1) = (Spec.runStrings d draw n).map some := by
  rw [← runClients_strings d draw weight n, List.map_map]
  rfl

theorem script_notUpload (cfg : Config) (draw : MainDraw) (sizes : List Nat) (shares : List ReportShare) (T b d : Nat)
    (strings : List (Option (List Bool))) :
    (runReceived cfg draw sizes shares (Spec.whhScript T b d strings)).filter Spec.notUpload
      = .reset draw.verifyKey cfg.histBuckets :: Spec.whhScript T b d strings := by
  unfold runReceived
  rw [List.filter_cons_of_pos rfl, List.filter_append]
  have h1 : ((splitBatches sizes shares).map Req.addReportShares).filter Spec.notUpload = [] := by
    rw [List.filter_eq_nil_iff]
    intro r hr
    obtain ⟨_, -, rfl⟩ := List.mem_map.1 hr
    simp [Spec.notUpload]
  have h2 : (Spec.whhScript T b d strings).filter Spec.notUpload = Spec.whhScript T b d strings := by
    rw [List.filter_eq_self]
    intro r hr
    unfold Spec.whhScript at hr
    simp only [List.mem_append, List.mem_map, List.mem_flatMap, List.mem_cons, List.not_mem_nil, or_false] at hr
    rcases hr with (((((rfl | ⟨_, -, rfl⟩) | rfl) | ⟨_, -, rfl | rfl⟩) | rfl) | ⟨_, -, rfl⟩) | rfl | rfl <;> rfl
  rw [h1, h2]
  rfl

/-- What the collector hears from a server in a run. -/
def runReplies (Q : Prims) (cfg : Config) (draw : MainDraw) (n d : Nat) (sizes : List Nat) (shares : List ReportShare)
    (ver : List (List Field128)) (rs : Nat → List (Block × Nat)) : List Resp :=
  .done :: ((sizes.map fun _ => .done) ++ whhReplies (max 1 cfg.threshold) cfg.queryBatch d
    ((Spec.runStrings d draw n).map some) ver (aggAt Q cfg.histBuckets (shares.map fun s => (true, s))) rs
    (lastProofs Q cfg.histBuckets (shares.map fun s => (true, s))
      (Spec.heavyAt (max 1 cfg.threshold) ((Spec.runStrings d draw n).map some) (d - 1))))

/-- The answers of the two servers in a run. -/
theorem world_hears {Q : Prims} {weight : Nat → Nat} {prog : Prog Shown} {kcs : Pair2 Q}
    {sh : List (ReportShare × ReportShare)} {sent : List (Req × Req)} {out : Shown} {t0 t1 : Server Q} {sizes : List Nat}
    {ver0 ver1 : List (List Field128)} {rs : Nat → List (Block × Nat)}
    (hh : Q.histOk cfg.histBuckets = true) (hb : 1 ≤ cfg.queryBatch) (hs0 : c0.dataBits = some d) (hs1 : c1.dataBits = some d)
    (hd2 : 2 ≤ d) (h0 : c0.serverId = 0) (h1 : c1.serverId ≠ 0) (hl : sh.length = n) (hsz : sizes.sum = n)
    (hheavy : Spec.heavyAt (max 1 cfg.threshold) ((Spec.runStrings d draw n).map some) (d - 2) ≠ [])
    (ht : Spec.Talk c0 c1 prog (.running kcs.1) (.running kcs.2) sent out t0 t1)
    (hr : ∀ own, Spec.received own sent = runReceived cfg draw sizes (sh.map fun s => Pair.get s own)
      (Spec.whhScript (max 1 cfg.threshold) cfg.queryBatch d ((Spec.runStrings d draw n).map some)))
    (W : World Q cfg.histBuckets d (max 1 cfg.threshold) c0.serverId c1.serverId draw.verifyKey
      (Spec.runClients d draw weight n) (sh.map Prod.fst) (sh.map Prod.snd) ver0 ver1 rs) :
    Spec.Hears c0 c1 prog (.running kcs.1) (.running kcs.2) sent
      ((runReplies Q cfg draw n d sizes (sh.map Prod.fst) ver0 rs).zip
        (runReplies Q cfg draw n d sizes (sh.map Prod.snd) ver1 rs))
      out t0 t1 := by
  have hsl : (Spec.runStrings d draw n).length = n := by simp [Spec.runStrings]
  have w0 := W.roots0
  have w1 := W.roots1
  rw [runClients_some] at w0 w1
  obtain ⟨k0, e0⟩ := served_whh (P := Q) (c := c0) (n := cfg.histBuckets) (d := d) (b := cfg.queryBatch)
    (T := max 1 cfg.threshold) (shares := sh.map Prod.fst) (ver := ver0) (strings := Spec.runStrings d draw n) (rs := rs)
    (kc := { KeyCollection.new Q cfg.histBuckets c0.serverId c0.dataBits draw.verifyKey with
      reportShares := (sh.map Prod.fst).map fun s => (true, s) }) hb (by omega) rfl rfl hs0 W.reach0 W.ver0
    (by rw [hsl, List.length_map, hl])
    (fun m hm => ⟨heavyAt_ne hheavy m (by omega), by
      show merkleRoots Q (Spec.digests Q _ (decide (c0.serverId = 0)) _ _) _ _ _ = _
      rw [h0]; exact w0 m hm⟩)
  obtain ⟨k1, e1⟩ := served_whh (P := Q) (c := c1) (n := cfg.histBuckets) (d := d) (b := cfg.queryBatch)
    (T := max 1 cfg.threshold) (shares := sh.map Prod.snd) (ver := ver1) (strings := Spec.runStrings d draw n) (rs := rs)
    (kc := { KeyCollection.new Q cfg.histBuckets c1.serverId c1.dataBits draw.verifyKey with
      reportShares := (sh.map Prod.snd).map fun s => (true, s) }) hb (by omega) rfl rfl hs1 W.reach1 W.ver1
    (by rw [hsl, List.length_map, hl])
    (fun m hm => ⟨heavyAt_ne hheavy m (by omega), by
      show merkleRoots Q (Spec.digests Q _ (decide (c1.serverId = 0)) _ _) _ _ _ = _
      rw [decide_eq_false h1]; exact w1 m hm⟩)
  have m0 := served_main (draw := draw) (kc := kcs.1) (cfg := cfg) hh (hsz.trans (by rw [List.length_map, hl])) e0
  have m1 := served_main (draw := draw) (kc := kcs.2) (cfg := cfg) hh (hsz.trans (by rw [List.length_map, hl])) e1
  refine hears_of_talk ht ?_ ?_
  · rw [hr false]
    exact congrArg Prod.snd m0
  · rw [hr true]
    exact congrArg Prod.snd m1

theorem heavyAt_of_heavy {T k n d : Nat} {draw : MainDraw} (hheavy : ∃ s : List Bool, s.length = k ∧
      (s ≠ [] → T ≤ (Spec.runStrings d draw n).countP fun a => s.isPrefixOf a)) :
    Spec.heavyAt T ((Spec.runStrings d draw n).map some) k ≠ [] := by
  obtain ⟨s, g1, g2⟩ := hheavy
  refine List.ne_nil_of_mem (a := s) (List.mem_filter.2 ⟨mem_allPaths.2 g1, ?_⟩)
  by_cases hne : s = []
  · subst hne; rfl
  · have : Spec.countOf ((Spec.runStrings d draw n).map some) s
        = (Spec.runStrings d draw n).countP fun a => s.isPrefixOf a := by
      unfold Spec.countOf
      rw [List.countP_map]
      rfl
    rw [this]
    simpa [hne] using g2 hne

/-- One run with given values, with the answers. -/
theorem run_hears {weight : Nat → Nat} {aes : Block → Block} {Q : Prims} (hQ : Q = { P with aes := aes }.withHistogram)
    (w : Spec.RunCoins P.withHistogram cfg.uniqueBuckets cfg.histBuckets d draw) (kcs : Pair2 Q)
    (hs : Spec.Sensible P.withHistogram cfg draw n) (hb64 : cfg.histBuckets < 2 ^ 64)
    (hxof : ∀ seed binder l, (P.xofField seed binder l).length = l)
    (hroot : ∀ i < n, ∀ t ∈ P.xofField draw.verifyKey (Spec.MainDraw.of draw i).rand.nonce.toList 1,
      t ^ Spec.points cfg.histBuckets 2 ≠ 1)
    (htam : ∀ i < n, (draw.picks i).2 ≠ some .flp) (hd : cfg.dataBits = some d) (hs0 : c0.dataBits = some d)
    (hs1 : c1.dataBits = some d) (hd2 : 2 ≤ d) (h0 : c0.serverId = 0) (h1 : c1.serverId ≠ 0) (hn : 1 ≤ n)
    (hlt : n < 2 ^ 64) (hw : ∀ i < cfg.uniqueBuckets, weight i < cfg.histBuckets)
    (hheavy : ∃ s : List Bool, s.length = d - 2 ∧
      (s ≠ [] → max 1 cfg.threshold ≤ (Spec.runStrings d draw n).countP fun a => s.isPrefixOf a))
    {r : Nat → Field128 × Field128}
    (hj : ∀ i < cfg.uniqueBuckets, P.xofField
      (seedParts P (draw.reports i).rand.rootSeeds (draw.reports i).rand.nonce).1
      (seedParts P (draw.reports i).rand.rootSeeds (draw.reports i).rand.nonce).2.toList 2 = [(r i).1, (r i).2])
    {sizes : List Nat} (hsz : uploadBatches cfg.addBatch n n = .ok sizes) (hsum : sizes.sum = n) :
    ∃ (sh : List (ReportShare × ReportShare)) (sent : List (Req × Req)) (results printed : List HHResult)
      (t0 t1 : Server Q) (ver0 ver1 : List (List Field128)) (rs : Nat → List (Block × Nat)),
      Spec.Hears c0 c1 (mainP Q bld cfg .weightedHeavyHitters (Spec.runDraw draw weight w) n) (.running kcs.1)
        (.running kcs.2) sent ((runReplies Q cfg draw n d sizes (sh.map Prod.fst) ver0 rs).zip
          (runReplies Q cfg draw n d sizes (sh.map Prod.snd) ver1 rs)) (.whh results printed) t0 t1 ∧
      results.map (fun r => (r.path, r.value))
        = Spec.heavyHitters cfg.histBuckets (max 1 cfg.threshold) d (Spec.runClients d draw weight n) ∧
      (∀ own, Spec.received own sent = runReceived cfg draw sizes (sh.map fun s => Pair.get s own)
        (Spec.whhScript (max 1 cfg.threshold) cfg.queryBatch d ((Spec.runStrings d draw n).map some))) ∧
      sh.length = n ∧
      World Q cfg.histBuckets d (max 1 cfg.threshold) c0.serverId c1.serverId draw.verifyKey
        (Spec.runClients d draw weight n) (sh.map Prod.fst) (sh.map Prod.snd) ver0 ver1 rs ∧
      ∀ (own : Bool), ∀ i < n, ∀ j (hj : j < cfg.uniqueBuckets), j = (draw.picks i).1 - 1 →
        (sh.map fun s => Pair.get s own)[i]? = some (.mastic (draw.reports j).rand.nonce
          (Pair.get (VidpfKey.gen Q (draw.reports j).rand.rootSeeds (Spec.stringOf d (draw.reports j))
            (Spec.bucketVec cfg.histBuckets (weight j))) own)
          (Pair.get (shareProof (proofOf cfg.histBuckets 2 (Spec.bucketVec cfg.histBuckets (weight j))
              (List.ofFn (w ⟨j, hj⟩).2.1) (r j).1)
            (Spec.coinsRand (draw.reports j).rand.nonce (w ⟨j, hj⟩)).proofRand) own)
          (seedParts P (draw.reports j).rand.rootSeeds (draw.reports j).rand.nonce)) := by
  obtain ⟨sh, sent, results, printed, t0, t1, a1, a2, a3, a4, a5, a6⟩ := run_whh (c0 := c0) (c1 := c1) (bld := bld)
    (weight := weight) hQ w kcs hs hb64 hxof hroot htam hd hs0 hs1 hd2 h0 h1 hn hlt hw hheavy hj hsz
  have hcne : Spec.runClients d draw weight n ≠ [] := by
    rw [← List.length_pos_iff]
    simp [Spec.runClients]
    omega
  obtain ⟨v0, v1, rs, W⟩ := world_of_population (P := Q) (n := cfg.histBuckets) (d := d) (vk := draw.verifyKey)
    (T := max 1 cfg.threshold) (s0 := sh.map Prod.fst) (s1 := sh.map Prod.snd) h0 h1 (by omega) hcne
    (by rw [List.map_map, List.map_map]; exact a5)
  exact ⟨sh, sent, results, printed, t0, t1, v0, v1, rs, world_hears (by rw [hQ]; exact hs.hist) hs.queryBatch hs0 hs1 hd2 h0 h1 a4 hsum
    (heavyAt_of_heavy hheavy) a1 a2 W, a3, a2, a4, W, a6⟩

/-! ### The answers determine the sums -/

theorem flatMap_pair_inj {α : Type} {f g f' g' : Nat → α} : ∀ {l : List Nat},
    (l.flatMap fun m => [f m, g m]) = (l.flatMap fun m => [f' m, g' m]) → ∀ m ∈ l, f m = f' m
  | [], _ => by simp
  | a :: l, h => by
    simp only [List.flatMap_cons, List.cons_append, List.nil_append, List.cons.injEq] at h
    intro m hm
    rcases List.mem_cons.1 hm with rfl | hm
    · exact h.1
    · exact flatMap_pair_inj h.2.2 m hm

theorem whhReplies_inj {T b d : Nat} {strings : List (Option (List Bool))} {ver ver' : List (List Field128)}
    {agg agg' : List Bool → List Field128} {rs rs' : Nat → List (Block × Nat)} {pf pf' : List Block}
    (h : whhReplies T b d strings ver' agg' rs' pf' = whhReplies T b d strings ver agg rs pf) :
    ∀ q ∈ Spec.askedAt T d strings, agg' q = agg q := by
  unfold whhReplies at h
  obtain ⟨h, -⟩ := List.append_inj h (by simp)
  obtain ⟨h, -⟩ := List.append_inj h (by simp)
  obtain ⟨h, hlast⟩ := List.append_inj h (by simp)
  obtain ⟨-, h⟩ := List.append_inj h (by simp)
  have hall : ∀ m < d, (kids (Spec.heavyAt T strings m)).map agg' = (kids (Spec.heavyAt T strings m)).map agg := by
    intro m hm
    by_cases hmd : m < d - 1
    · have := flatMap_pair_inj h m (List.mem_range.2 hmd)
      simp only [crawlReply, Resp.crawl.injEq] at this
      exact congrArg (·.cntValues) this
    · obtain rfl : m = d - 1 := by omega
      simpa using hlast
  intro q hq
  obtain ⟨m, hm, hq⟩ := List.mem_flatMap.1 hq
  exact List.map_eq_map_iff.1 (hall m (List.mem_range.1 hm)) q hq

theorem runReplies_inj {Q Q' : Prims} {sizes : List Nat} {shares shares' : List ReportShare}
    {ver ver' : List (List Field128)} {rs rs' : Nat → List (Block × Nat)}
    (h : runReplies Q' cfg draw n d sizes shares' ver' rs' = runReplies Q cfg draw n d sizes shares ver rs) :
    ∀ q ∈ Spec.askedAt (max 1 cfg.threshold) d ((Spec.runStrings d draw n).map some),
      aggAt Q' cfg.histBuckets (shares'.map fun s => (true, s)) q
        = aggAt Q cfg.histBuckets (shares.map fun s => (true, s)) q := by
  unfold runReplies at h
  exact whhReplies_inj (List.append_cancel_left (List.cons.inj h).2)

theorem runReplies_length {Q Q' : Prims} {sizes : List Nat} {shares shares' : List ReportShare}
    {ver ver' : List (List Field128)} {rs rs' : Nat → List (Block × Nat)} :
    (runReplies Q' cfg draw n d sizes shares' ver' rs').length = (runReplies Q cfg draw n d sizes shares ver rs).length := by
  unfold runReplies whhReplies
  simp [List.length_flatMap]

/-- The verifier shares of both servers are the same in two corresponding runs. -/
theorem verifiers_moved {cfg : Config} {draw : MainDraw} {n d : Nat} {own : Bool} {weight weight' : Nat → Nat}
    {r : Nat → Field128 × Field128} {t : Nat → Field128} {paths : List (List Bool)}
    {w w' : Spec.RunCoins P.withHistogram cfg.uniqueBuckets cfg.histBuckets d draw} (hb64 : cfg.histBuckets < 2 ^ 64)
    (hd : 1 ≤ d) (hf : Spec.FreshRun P.withHistogram cfg.uniqueBuckets cfg.histBuckets d draw own)
    (he : Spec.FreshEvals P.withHistogram cfg.uniqueBuckets cfg.histBuckets d draw own paths)
    (hfirst : ∀ b : Bool, [b] ∈ paths)
    (hQ : Q = Spec.setRun P.withHistogram cfg.uniqueBuckets cfg.histBuckets d draw (!own) w)
    (hQ' : Q' = Spec.setRun P.withHistogram cfg.uniqueBuckets cfg.histBuckets d draw (!own) w')
    (hw1 : w' = moveRun own weight weight' (fun i => (r i).1) t w)
    (hpick : ∀ i < n, 1 ≤ (draw.picks i).1 ∧ (draw.picks i).1 ≤ cfg.uniqueBuckets)
    (hw : ∀ i < cfg.uniqueBuckets, weight i < cfg.histBuckets)
    (hw' : ∀ i < cfg.uniqueBuckets, weight' i < cfg.histBuckets)
    (hj : ∀ i, P.xofField
      (seedParts P (draw.reports i).rand.rootSeeds (draw.reports i).rand.nonce).1
      (seedParts P (draw.reports i).rand.rootSeeds (draw.reports i).rand.nonce).2.toList 2 = [(r i).1, (r i).2])
    (ht : ∀ i, P.xofField draw.verifyKey (draw.reports i).rand.nonce.toList 1 = [t i])
    {id0 id1 : Int} (h0 : id0 = 0) (h1 : id1 ≠ 0)
    {sh sh' : List (ReportShare × ReportShare)} (a4 : sh.length = n) (b4 : sh'.length = n)
    (a6 : ∀ (own : Bool), ∀ i < n, ∀ j (hj : j < cfg.uniqueBuckets), j = (draw.picks i).1 - 1 →
        (sh.map fun s => Pair.get s own)[i]? = some (.mastic (draw.reports j).rand.nonce
          (Pair.get (VidpfKey.gen Q (draw.reports j).rand.rootSeeds (Spec.stringOf d (draw.reports j))
            (Spec.bucketVec cfg.histBuckets (weight j))) own)
          (Pair.get (shareProof (proofOf cfg.histBuckets 2 (Spec.bucketVec cfg.histBuckets (weight j))
              (List.ofFn (w ⟨j, hj⟩).2.1) (r j).1)
            (Spec.coinsRand (draw.reports j).rand.nonce (w ⟨j, hj⟩)).proofRand) own)
          (seedParts P (draw.reports j).rand.rootSeeds (draw.reports j).rand.nonce)))
    (b6 : ∀ (own : Bool), ∀ i < n, ∀ j (hj : j < cfg.uniqueBuckets), j = (draw.picks i).1 - 1 →
        (sh'.map fun s => Pair.get s own)[i]? = some (.mastic (draw.reports j).rand.nonce
          (Pair.get (VidpfKey.gen Q' (draw.reports j).rand.rootSeeds (Spec.stringOf d (draw.reports j))
            (Spec.bucketVec cfg.histBuckets (weight' j))) own)
          (Pair.get (shareProof (proofOf cfg.histBuckets 2 (Spec.bucketVec cfg.histBuckets (weight' j))
              (List.ofFn (w' ⟨j, hj⟩).2.1) (r j).1)
            (Spec.coinsRand (draw.reports j).rand.nonce (w' ⟨j, hj⟩)).proofRand) own)
          (seedParts P (draw.reports j).rand.rootSeeds (draw.reports j).rand.nonce)))
    (hmv : (sh'.map fun s => Pair.get s own) = sh.map fun s => Pair.get s own) (o : Bool) :
    (sh'.map fun s => Pair.get s o).map (Spec.verifierOf Q' cfg.histBuckets (Pair.get (id0, id1) o) draw.verifyKey)
      = (sh.map fun s => Pair.get s o).map (Spec.verifierOf Q cfg.histBuckets (Pair.get (id0, id1) o) draw.verifyKey) := by
  have hvo : ∀ i < n, ∀ s, (sh.map fun s => Pair.get s own)[i]? = some s →
      Spec.verifierOf Q' cfg.histBuckets (Pair.get (id0, id1) own) draw.verifyKey s
        = Spec.verifierOf Q cfg.histBuckets (Pair.get (id0, id1) own) draw.verifyKey s := by
    intro i hi s hsi
    obtain ⟨g1, g2⟩ := hpick i hi
    have hju : (draw.picks i).1 - 1 < cfg.uniqueBuckets := by omega
    rw [a6 own i hi _ hju rfl] at hsi
    obtain rfl := Option.some.inj hsi
    have e : ∀ b : Bool, Spec.valueAt Q' (Pair.get (VidpfKey.gen Q (draw.reports ((draw.picks i).1 - 1)).rand.rootSeeds
        (Spec.stringOf d (draw.reports ((draw.picks i).1 - 1))) (Spec.bucketVec cfg.histBuckets
          (weight ((draw.picks i).1 - 1)))) own) cfg.histBuckets [b]
        = Spec.valueAt Q (Pair.get (VidpfKey.gen Q (draw.reports ((draw.picks i).1 - 1)).rand.rootSeeds
        (Spec.stringOf d (draw.reports ((draw.picks i).1 - 1))) (Spec.bucketVec cfg.histBuckets
          (weight ((draw.picks i).1 - 1)))) own) cfg.histBuckets [b] := by
      intro b
      unfold Spec.valueAt
      rw [own_evalPath hf he w w' ⟨_, hju⟩ (hfirst b) (by simpa using hd) hQ hQ']
    unfold Spec.verifierOf
    simp only [e]
    rw [hQ', hQ]
    rfl
  by_cases ho : o = own
  · subst ho
    rw [hmv]
    refine List.map_congr_left fun s hsm => ?_
    obtain ⟨i, hi⟩ := List.getElem?_of_mem hsm
    exact hvo i (by have := (List.getElem?_eq_some_iff.1 hi).1; simpa [a4] using this) s hi
  · obtain rfl : o = !own := by cases o <;> cases own <;> simp_all
    refine List.ext_getElem? fun i => ?_
    rw [List.getElem?_map (l := sh'.map fun s => Pair.get s !own),
      List.getElem?_map (l := sh.map fun s => Pair.get s !own)]
    by_cases hi : i < n
    · obtain ⟨g1, g2⟩ := hpick i hi
      have hju : (draw.picks i).1 - 1 < cfg.uniqueBuckets := by omega
      rw [a6 (!own) i hi _ hju rfl, b6 (!own) i hi _ hju rfl, Option.map_some, Option.map_some]
      have hg := moveRun_gen (weight := weight) (weight' := weight') (r0 := fun i => (r i).1) (t := t) (w := w) hf hQ
        (hw1 ▸ hQ') ⟨_, hju⟩
      have hg : VidpfKey.gen Q' (draw.reports ((draw.picks i).1 - 1)).rand.rootSeeds
          (Spec.stringOf d (draw.reports ((draw.picks i).1 - 1)))
          (Spec.bucketVec cfg.histBuckets (weight' ((draw.picks i).1 - 1)))
        = VidpfKey.gen Q (draw.reports ((draw.picks i).1 - 1)).rand.rootSeeds
          (Spec.stringOf d (draw.reports ((draw.picks i).1 - 1)))
          (Spec.bucketVec cfg.histBuckets (weight ((draw.picks i).1 - 1))) := hg
      rw [hg]
      congr 1
      refine other_verifier (P := P) hb64 (encode_bucketVec (hw _ hju)) (encode_bucketVec (hw' _ hju)) ?_ own
        (hj _) (ht _) (aes := Q.aes) (aes' := Q'.aes) (by rw [hQ]; rfl) (by rw [hQ']; rfl) hg
        (w := w ⟨_, hju⟩) (w' := w' ⟨_, hju⟩) (by rw [hw1]; rfl) rfl rfl h0 h1 ?_
      · intro e
        have := congrArg List.length e
        simp [Spec.stringOf] at this
        omega
      · exact hvo i hi _ (a6 own i hi _ hju rfl)
    · rw [List.getElem?_eq_none (by simpa [b4] using hi), List.getElem?_eq_none (by simpa [a4] using hi)]
      rfl

end Mastic
