import Verif.Lemmas.Vidpf

/-!
# Properties of VIDPF key generation and evaluation: C01 - C03, C07, C14 (root seeds)
-/

namespace Mastic

/-! ## C01: correctness -/

/-- C01. Evaluating both keys of a report on `idx` (from any start proofs, in any builds) gives one
share per prefix of `idx`, and the shares of the prefix of length `i + 1` add up to the point
function's value at that prefix. -/
theorem C01_shares_reconstruct (P : Prims) (bld bld' : Build) (rs : Block × Block)
    (alpha : List Bool) (beta : List Field128) (index : List Bool) (pi0 pi1 : Block)
    (hne : index ≠ []) (hlen : index.length ≤ alpha.length) :
    ∃ out0 last0 pi0' out1 last1 pi1',
      (VidpfKey.gen P rs alpha beta).1.eval P bld index pi0 beta.length = .ok (out0, last0, pi0') ∧
      (VidpfKey.gen P rs alpha beta).2.eval P bld' index pi1 beta.length = .ok (out1, last1, pi1') ∧
      out0.length + 1 = index.length ∧ out1.length + 1 = index.length ∧
      List.zipWith Spec.addShares (out0 ++ [last0]) (out1 ++ [last1])
        = (List.range index.length).map fun i =>
            Spec.pointValue alpha beta (index.take (i + 1)) := by
  obtain ⟨o0, l0, q0, o1, l1, q1, h0, h1, a, b, -, c⟩ :=
    honest_eval P bld bld' rs alpha beta index pi0 pi1 hne hlen
  exact ⟨o0, l0, q0, o1, l1, q1, h0, h1, a, b, c⟩

/-- both cases of the point function occur -/
example : Spec.pointValue [true, false] [5, 6] [true] = [5, 6, 1] ∧
    Spec.pointValue [true, false] [5, 6] [false] = [0, 0, 0] := by decide

/-! ## C02: honest proofs agree -/

/-- C02. Both servers end with the same proof if they started with the same proof. -/
theorem C02_proofs_agree (P : Prims) (bld bld' : Build) (rs : Block × Block)
    (alpha : List Bool) (beta : List Field128) (index : List Bool) (pi : Block)
    (hne : index ≠ []) (hlen : index.length ≤ alpha.length) :
    ∃ out0 last0 out1 last1 pi',
      (VidpfKey.gen P rs alpha beta).1.eval P bld index pi beta.length = .ok (out0, last0, pi') ∧
      (VidpfKey.gen P rs alpha beta).2.eval P bld' index pi beta.length = .ok (out1, last1, pi') := by
  obtain ⟨o0, l0, q0, o1, l1, q1, h0, h1, -, -, b, -⟩ :=
    honest_eval P bld bld' rs alpha beta index pi pi hne hlen
  have := b rfl
  subst this
  exact ⟨o0, l0, o1, l1, q0, h0, h1⟩

/-- C02. The proofs also agree in the states reached bit by bit (the form the aggregators use), at
every path of the domain including the full length. -/
theorem C02_state_proofs_agree (P : Prims) (rs : Block × Block) (alpha : List Bool)
    (beta : List Field128) (path : List Bool) (hlen : path.length ≤ alpha.length) :
    ∃ st0 w0 st1 w1,
      Spec.evalPath P (VidpfKey.gen P rs alpha beta).1 beta.length path = .ok (st0, w0) ∧
      Spec.evalPath P (VidpfKey.gen P rs alpha beta).2 beta.length path = .ok (st1, w1) ∧
      st0.proof = st1.proof := by
  obtain ⟨r0, r1, h0, h1, hp, -⟩ := honest_evalPath P rs alpha beta path hlen
  exact ⟨r0.1, r0.2, r1.1, r1.2, h0, h1, hp⟩

example : ([false, true] : List Bool) ≠ [] ∧
    ([false, true] : List Bool).length ≤ ([true, true, false] : List Bool).length := by decide

/-! ## C03: totality exactly on the domain -/

/-- C03. From every state, one more bit succeeds exactly below the domain size. -/
theorem C03_eval_bit_returns_iff (P : Prims) (rs : Block × Block) (alpha : List Bool)
    (beta : List Field128) (server : Bool) (st : EvalState) (dir : Bool) (s : List Byte) (n : Nat) :
    Returns ((Pair.get (VidpfKey.gen P rs alpha beta) server).evalBit P st dir s n) ↔
      st.level < alpha.length := by
  obtain ⟨h1, h2⟩ := gen_lengths P rs alpha beta server
  rw [evalBit_returns_iff (h2.trans h1.symm), h1]

/-- C03. `eval` returns exactly on the non-empty indices within the domain, in either build. -/
theorem C03_eval_returns_iff (P : Prims) (bld : Build) (rs : Block × Block) (alpha : List Bool)
    (beta : List Field128) (server : Bool) (index : List Bool) (pi : Block) (n : Nat) :
    Returns ((Pair.get (VidpfKey.gen P rs alpha beta) server).eval P bld index pi n) ↔
      index ≠ [] ∧ index.length ≤ alpha.length := by
  obtain ⟨h1, h2⟩ := gen_lengths P rs alpha beta server
  rw [eval_returns_iff (h2.trans h1.symm), h1]

/-- C03. The domain size of a generated key is the length of the client's string. -/
theorem C03_domain_size (P : Prims) (rs : Block × Block) (alpha : List Bool) (beta : List Field128)
    (server : Bool) : (Pair.get (VidpfKey.gen P rs alpha beta) server).domainSize = alpha.length := by
  exact (gen_lengths P rs alpha beta server).1

/-! ## C07: a share reveals the string -/

/-- C07 is false: one fixed function, without any knowledge of the primitives, reads the client's
string from either server's key. -/
theorem C07_false_alpha_recoverable :
    ∃ read : VidpfKey → List Bool, ∀ (P : Prims) (rs : Block × Block) (alpha : List Bool)
      (beta : List Field128) (server : Bool),
      read (Pair.get (VidpfKey.gen P rs alpha beta) server) = alpha := by
  refine ⟨fun k => k.corWords.map fun cw => cw.bits.2, ?_⟩
  intro P rs alpha beta server
  have h : (Pair.get (VidpfKey.gen P rs alpha beta) server).corWords
      = (genLoop P beta alpha [] (false, true) rs).1 := by cases server <;> rfl
  simp only [h]
  exact genLoop_bits P beta alpha _ _ _

/-- C07 is false: no key is a possible share of two different strings, whatever the seeds, weights and
primitives. -/
theorem C07_false_shares_disjoint (P P' : Prims) (rs rs' : Block × Block) (alpha alpha' : List Bool)
    (beta beta' : List Field128) (server : Bool)
    (h : Pair.get (VidpfKey.gen P rs alpha beta) server
      = Pair.get (VidpfKey.gen P' rs' alpha' beta') server) : alpha = alpha' := by
  obtain ⟨read, hr⟩ := C07_false_alpha_recoverable
  rw [← hr P rs alpha beta server, h, hr]

/-! ## C14: masked root-seed bits are invisible to evaluation -/

/-- C14. Changing only the two masked bits of a key's root seed changes no result of `eval`. -/
theorem C14_root_seed_masked_bits (P : Prims) (bld : Build) (key : VidpfKey) (seed' : Block)
    (h0 : ∀ j, 2 ≤ j → key.rootSeed[0].getLsbD j = seed'[0].getLsbD j)
    (h : ∀ i (hi : i < 16), i ≠ 0 → key.rootSeed[i] = seed'[i]) (index : List Bool) (pi : Block)
    (n : Nat) :
    { key with rootSeed := seed' }.eval P bld index pi n = key.eval P bld index pi n := by
  have hm : maskKey key.rootSeed = maskKey seed' := (maskKey_eq_iff _ _).2 ⟨h0, h⟩
  exact eval_rootSeed_congr P bld key seed' hm index pi n

example : (∀ j, 2 ≤ j → (Block.zero)[0].getLsbD j = (Block.zero.set 0 1#8)[0].getLsbD j) ∧
    Block.zero ≠ Block.zero.set 0 1#8 := by
  have h : maskKey Block.zero = maskKey (Block.zero.set 0 1#8) := by decide
  exact ⟨((maskKey_eq_iff _ _).1 h).1, by decide⟩

end Mastic
