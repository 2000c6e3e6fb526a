import Verif.Lemmas.Tests
import Verif.Props.Libprio

/-!
# C110: the repository's tests pass for all inputs in place of their literals
-/

namespace Mastic

variable {P : Prims}

/-! ### `tests/collect_test.rs` -/

/-- **C110.**  Clients with ASCII strings of one length: if some prefix of all but two bits is held by `T` clients, the
two collections of `tests/collect_test.rs` arrive at exactly the strings held by `T` clients, each once, each with the
histogram of its holders' buckets and their number, whatever the seeds and primitives. -/
theorem C110_collect {bld : Build} {n T k L : Nat} {vk : Block} {clients : List TestClient} (hne : clients ≠ [])
    (hascii : ∀ c ∈ clients, ∀ b ∈ c.str, b.toNat < 128) (hlen : ∀ c ∈ clients, c.str.length = L) (hL : 1 ≤ L)
    (hb : ∀ c ∈ clients, c.bucket < n) (hT : 1 ≤ T) (hcnt : clients.length < 2 ^ 64)
    (hpre : ∃ p, p.length = 8 * L - 2 ∧ T ≤ Spec.startingWith (clients.map TestClient.plain) p) :
    ∃ rs, collectTest P bld n T k vk clients = .ok rs ∧ (rs.map Prod.fst).Nodup ∧
      ∀ s v, (s, v) ∈ rs ↔ T ≤ (Spec.bucketsOf (clients.map TestClient.plain) s).length ∧
        v = Spec.histogram n (Spec.bucketsOf (clients.map TestClient.plain) s)
          ++ [((Spec.bucketsOf (clients.map TestClient.plain) s).length : Field128)] := by
  obtain ⟨res, hres, he⟩ := (collectTest_run (P := P) (bld := bld) (k := k) (vk := vk) hne hlen hL hb hT hcnt).1 hpre
  generalize hcl : (clients.map fun c => (expBits c.str, c.bucket)) = cl at hres
  -- every path of a result belongs to a client
  have hpath : ∀ r ∈ res, ∃ s, r.path = expBits s ∧ (∀ b ∈ s, b.toNat < 128) ∧
      T ≤ (Spec.bucketsOf (clients.map TestClient.plain) s).length ∧
      r.value = Spec.histogram n (Spec.bucketsOf (clients.map TestClient.plain) s)
          ++ [((Spec.bucketsOf (clients.map TestClient.plain) s).length : Field128)] := by
    intro r hr
    have : (r.path, r.value) ∈ Spec.heavyHitters n T (8 * L) cl := by
      rw [← hres]; exact List.mem_map.2 ⟨r, hr, rfl⟩
    obtain ⟨s, hs, hs2⟩ := List.mem_map.1 this
    obtain ⟨-, hs3⟩ := List.mem_filter.1 hs
    have hs3 := of_decide_eq_true hs3
    obtain ⟨x, hx, hx2⟩ := List.countP_pos_iff.1 (lt_of_lt_of_le hT hs3)
    rw [← hcl] at hx
    obtain ⟨c, hc, rfl⟩ := List.mem_map.1 hx
    have hx2 : expBits c.str = s := by simpa using hx2
    subst hx2
    rw [← hcl, countP_bucketsOf] at hs3 hs2
    rw [bucketsOf_eq, Prod.mk.injEq] at hs2
    exact ⟨c.str, hs2.1.symm, hascii c hc, hs3, hs2.2.symm⟩
  choose! f hf1 hf2 hf3 hf4 using hpath
  rw [mapE_ok_of_forall (g := fun r : HHResult => (f r, r.value))] at he
  · refine ⟨_, he, ?_, ?_⟩
    · have h1 : (res.map HHResult.path).Nodup := by
        have : res.map HHResult.path = (Spec.heavyHitters n T (8 * L) cl).map Prod.fst := by
          rw [← hres, List.map_map]; rfl
        rw [this]
        unfold Spec.heavyHitters
        rw [List.map_map]
        refine List.Nodup.map (fun a b h => h) ((allPaths_nodup _).filter _)
      rw [List.map_map]
      have h2 : res.map HHResult.path = (res.map (Prod.fst ∘ fun r => (f r, r.value))).map expBits := by
        rw [List.map_map]
        exact List.map_congr_left fun r hr => hf1 r hr
      rw [h2] at h1
      exact h1.of_map _
    · intro s v
      constructor
      · intro h
        obtain ⟨r, hr, hr2⟩ := List.mem_map.1 h
        cases hr2
        exact ⟨hf3 r hr, hf4 r hr⟩
      · rintro ⟨h1, rfl⟩
        have hpos : 0 < (Spec.bucketsOf (clients.map TestClient.plain) s).length := lt_of_lt_of_le hT h1
        have hsl : s.length = L := by
          obtain ⟨x, hx⟩ := List.exists_mem_of_length_pos hpos
          obtain ⟨y, hy, -⟩ := List.mem_map.1 hx
          obtain ⟨hy1, hy2⟩ := List.mem_filter.1 hy
          obtain ⟨c, hc, rfl⟩ := List.mem_map.1 hy1
          have : c.str = s := of_decide_eq_true hy2
          rw [← this, hlen c hc]
        have hmem : (expBits s, Spec.histogram n (Spec.bucketsOf (clients.map TestClient.plain) s)
            ++ [((Spec.bucketsOf (clients.map TestClient.plain) s).length : Field128)])
            ∈ Spec.heavyHitters n T (8 * L) cl := by
          refine List.mem_map.2 ⟨expBits s, List.mem_filter.2 ⟨mem_allPaths.2 (by rw [expBits_length, hsl]), ?_⟩, ?_⟩
          · rw [← hcl, countP_bucketsOf]; exact decide_eq_true h1
          · rw [← hcl, countP_bucketsOf, bucketsOf_eq]
        rw [← hres] at hmem
        obtain ⟨r, hr, hr2⟩ := List.mem_map.1 hmem
        rw [Prod.mk.injEq] at hr2
        refine List.mem_map.2 ⟨r, hr, ?_⟩
        rw [Prod.mk.injEq]
        exact ⟨expBits_injective ((hf1 r hr).symm.trans hr2.1), hr2.2⟩
  · intro r hr
    rw [hf1 r hr, bitsToString_expBits, if_pos (hf2 r hr)]
    rfl

/-- **C110.**  Otherwise the test stops with an index out of bounds at the empty frontier. -/
theorem C110_collect_panics {bld : Build} {n T k L : Nat} {vk : Block} {clients : List TestClient} (hne : clients ≠ [])
    (hlen : ∀ c ∈ clients, c.str.length = L) (hL : 1 ≤ L) (hb : ∀ c ∈ clients, c.bucket < n) (hT : 1 ≤ T)
    (hcnt : clients.length < 2 ^ 64)
    (hpre : ¬ ∃ p, p.length = 8 * L - 2 ∧ T ≤ Spec.startingWith (clients.map TestClient.plain) p) :
    collectTest P bld n T k vk clients = .error .index :=
  (collectTest_run hne hlen hL hb hT hcnt).2 hpre

/-! The literals of `collect_test_eval_groups` -/

/-- `"abdef"` -/
def abdef : List Byte := [97#8, 98#8, 100#8, 101#8, 102#8]
/-- `"ghijk"` -/
def ghijk : List Byte := [103#8, 104#8, 105#8, 106#8, 107#8]
/-- `"gZijk"` -/
def gZijk : List Byte := [103#8, 90#8, 105#8, 106#8, 107#8]
/-- `"gZ???"` -/
def gZqqq : List Byte := [103#8, 90#8, 63#8, 63#8, 63#8]
/-- `"  ?*g"` -/
def spqsg : List Byte := [32#8, 32#8, 63#8, 42#8, 103#8]

/-- The ten strings (`tests/collect_test.rs:8-10`). -/
def groupStrings : List (List Byte) :=
  [abdef, abdef, abdef, ghijk, gZijk, gZqqq, spqsg, abdef, gZqqq, gZqqq]

/-- The clients, all in bucket 2 (`tests/collect_test.rs:22`), with any seeds. -/
def groupClients (seeds : Nat → Block × Block) : List TestClient :=
  groupStrings.zipIdx.map fun s => ⟨s.1, 2, seeds s.2⟩

theorem groupClients_plain (seeds : Nat → Block × Block) :
    (groupClients seeds).map TestClient.plain = groupStrings.map fun s => (s, 2) := rfl

/-- **C110, the test as it stands** (`tests/collect_test.rs:6-95`): for all seeds and primitives the results are
`"abdef"` with `[0, 0, 4, 0, 4]` and `"gZ???"` with `[0, 0, 3, 0, 3]`, and nothing else. -/
theorem C110_groups (bld : Build) (vk : Block) (seeds : Nat → Block × Block) :
    ∃ rs, collectTest P bld 4 2 10 vk (groupClients seeds) = .ok rs ∧
      rs.Perm [(abdef, [0, 0, 4, 0, 4]), (gZqqq, [0, 0, 3, 0, 3])] := by
  have hmem : ∀ c ∈ groupClients seeds, c.str ∈ groupStrings ∧ c.bucket = 2 := by
    intro c hc
    obtain ⟨x, hx, rfl⟩ := List.mem_map.1 hc
    obtain ⟨s, i⟩ := x
    exact ⟨List.mem_of_getElem? (List.mem_zipIdx_iff_getElem?.1 hx), rfl⟩
  obtain ⟨rs, hok, hnd, hiff⟩ := C110_collect (P := P) (bld := bld) (n := 4) (T := 2) (k := 10) (L := 5) (vk := vk)
    (clients := groupClients seeds) (by simp [groupClients, groupStrings])
    (fun c hc => (by decide : ∀ s ∈ groupStrings, ∀ b ∈ s, b.toNat < 128) _ (hmem c hc).1)
    (fun c hc => (by decide : ∀ s ∈ groupStrings, s.length = 5) _ (hmem c hc).1) (by norm_num)
    (fun c hc => by rw [(hmem c hc).2]; norm_num) (by norm_num)
    (by simp [groupClients, groupStrings])
    ⟨(Spec.textBits abdef).take 38, by decide, by rw [groupClients_plain]; decide⟩
  refine ⟨rs, hok, (List.perm_ext_iff_of_nodup (List.Nodup.of_map _ hnd) ?_).2 ?_⟩
  · refine List.Nodup.of_map Prod.fst ?_
    show [abdef, gZqqq].Nodup
    decide
  · rintro ⟨s, v⟩
    rw [hiff, groupClients_plain]
    simp only [List.mem_cons, Prod.mk.injEq, List.not_mem_nil, or_false]
    have hA : Spec.bucketsOf (groupStrings.map fun s => (s, 2)) abdef = [2, 2, 2, 2] := by decide
    have hB : Spec.bucketsOf (groupStrings.map fun s => (s, 2)) gZqqq = [2, 2, 2] := by decide
    by_cases h1 : s = abdef
    · subst h1
      rw [hA]
      have : ¬ abdef = gZqqq := by decide
      simp [Spec.histogram, List.range_succ, this]
    by_cases h2 : s = gZqqq
    · subst h2
      rw [hB]
      simp [Spec.histogram, List.range_succ, h1]
    simp only [h1, h2, false_and, or_self, iff_false, not_and]
    intro hlen
    exfalso
    have hle : ∀ t ∈ groupStrings, t ≠ abdef → t ≠ gZqqq →
        (Spec.bucketsOf (groupStrings.map fun s => (s, 2)) t).length < 2 := by decide
    by_cases hs : s ∈ groupStrings
    · have := hle s hs h1 h2
      omega
    · have : Spec.bucketsOf (groupStrings.map fun s => (s, 2)) s = [] := by
        unfold Spec.bucketsOf
        rw [List.map_eq_nil_iff, List.filter_eq_nil_iff]
        intro x hx
        obtain ⟨t, ht, rfl⟩ := List.mem_map.1 hx
        simp only [decide_eq_true_eq]
        rintro rfl
        exact hs ht
      rw [this] at hlen
      simp at hlen

/-- a threshold above the number of clients: the hypotheses of `C110_collect_panics` -/
example (seeds : Nat → Block × Block) : ¬ ∃ p, p.length = 8 * 5 - 2 ∧
    11 ≤ Spec.startingWith ((groupClients seeds).map TestClient.plain) p := by
  rintro ⟨p, -, h⟩
  have : Spec.startingWith ((groupClients seeds).map TestClient.plain) p ≤ _ := List.countP_le_length
  have hl : ((groupClients seeds).map TestClient.plain).length = 10 := rfl
  omega

/-! ### `tests/dpf_test.rs` -/

/-- **C110.**  `dpf_complete` passes for every number of bits up to 31, every point, every value and all seeds. -/
theorem C110_dpf (bld : Build) (nbits : Nat) (a : BitVec 32) (b : Field128) (seeds : Block × Block) (h1 : 1 ≤ nbits)
    (h : nbits ≤ 31) : dpfTest P bld nbits a b seeds = .ok () :=
  dpfTest_ok bld nbits a b seeds (by omega)

/-- the test as it stands -/
example (bld : Build) (seeds : Block × Block) : dpfTest P bld 5 21#32 7 seeds = .ok () :=
  C110_dpf bld 5 _ _ seeds (by norm_num) (by norm_num)

/-! ### `src/vidpf.rs` -/

/-- **C110.**  `mode_attribute_based_metrics` passes for every string, weight and list of attributes that are not empty
and not longer than the string, exactly if each expected value (as far as there are any) is the weight followed by 1 for
an attribute that the string starts with, and zeros for the others. -/
theorem C110_tree (seeds : Block × Block) {str : List Byte} (beta : List Field128) {attributes : List (List Byte)}
    (hs : str ≠ []) (ha : ∀ a ∈ attributes, a ≠ [] ∧ a.length ≤ str.length) (expected : List (List Field128)) :
    treeTest P seeds str beta attributes expected = .ok () ↔
      ∀ (i : Nat) (a : List Byte) (e : List Field128), attributes[i]? = some a → expected[i]? = some e →
        e = if a <+: str then beta ++ [1] else List.replicate (beta.length + 1) 0 := by
  rw [treeTest_ok seeds beta hs ha, assertE_eq_ok, List.all_eq_true]
  have hpv : ∀ a, Spec.pointValue (expBits str) beta (expBits a)
      = if a <+: str then beta ++ [1] else List.replicate (beta.length + 1) 0 := by
    intro a
    unfold Spec.pointValue
    have : expBits a <+: expBits str ↔ a <+: str := by
      constructor
      · intro h
        have h2 := List.prefix_iff_eq_take.1 h
        have h3 : expBits str = expBits (str.take a.length) ++ expBits (str.drop a.length) := by
          rw [← expBits_append, List.take_append_drop]
        by_cases hl : a.length ≤ str.length
        · have h4 : (expBits (str.take a.length)).length = (expBits a).length := by
            rw [expBits_length, expBits_length, List.length_take]; omega
          rw [h3, List.take_left' h4] at h2
          rw [List.prefix_iff_eq_take]
          exact expBits_injective h2
        · have := h.length_le
          rw [expBits_length, expBits_length] at this
          omega
      · rintro ⟨t, rfl⟩
        rw [expBits_append]
        exact List.prefix_append _ _
    simp only [this]
  constructor
  · intro h i a e hi he
    have hz : ((attributes.map fun a => Spec.pointValue (expBits str) beta (expBits a)).zip expected)[i]?
        = some (Spec.pointValue (expBits str) beta (expBits a), e) := by
      rw [List.getElem?_zip_eq_some, List.getElem?_map, hi]
      exact ⟨rfl, he⟩
    have := h _ (List.mem_of_getElem? hz)
    rw [beq_iff_eq] at this
    exact this.symm.trans (hpv a)
  · rintro h ⟨v, e⟩ hve
    obtain ⟨i, hi⟩ := List.getElem?_of_mem hve
    rw [List.getElem?_zip_eq_some, List.getElem?_map, Option.map_eq_some_iff] at hi
    obtain ⟨⟨a, hia, rfl⟩, hie⟩ := hi
    rw [beq_iff_eq]
    dsimp only
    rw [hpv, h i a e hia hie]

/-- the test as it stands: `"h"` with weight 1337, attributes `"h"`, `"s"`, `"b"`, `"c"` -/
example (seeds : Block × Block) : treeTest P seeds [104#8] [1337] [[104#8], [115#8], [98#8], [99#8]]
    [[1337, 1], [0, 0], [0, 0], [0, 0]] = .ok () := by
  rw [C110_tree seeds [1337] (by simp) (by decide)]
  rintro (_ | _ | _ | _ | i) a e ha he <;> simp at ha he <;> subst ha <;> subst he <;> decide

/-- a wrong expectation is noticed -/
example (seeds : Block × Block) : ¬ treeTest P seeds [104#8] [1337] [[104#8]] [[0, 0]] = .ok () := by
  rw [C110_tree seeds [1337] (by simp) (by decide)]
  intro h
  have := h 0 [104#8] [0, 0] rfl rfl
  simp at this

/-! ### `tests/flp_test.rs` -/

/-- **C110.**  With libprio's proof system, `run_flp_with_input` decides for every bucket, every number of buckets and all
random choices that the proof is valid, unless the query point is one of the interpolation points, when it panics. -/
theorem C110_flp {n bucket : Nat} {vk : Block} {r : FlpTestRand} (hn : n < 2 ^ 64) (hb : bucket < n)
    (hxof : ∀ seed binder l, (P.xofField seed binder l).length = l) (hpr : r.proveRand.length = 4) :
    ∃ t, P.xofField vk r.nonce.toList 1 = [t] ∧
      runFlpWithInput P.withHistogram n vk bucket r
        = if t ^ Spec.points n 2 = 1 then .error .unwrap else .ok (some true) := by
  obtain ⟨beta, hbeta⟩ := encodeMeasurement_some hb
  obtain ⟨hbl, -⟩ := encodeMeasurement_length hbeta
  obtain ⟨t, ht⟩ := List.length_eq_one_iff.1 (hxof vk r.nonce.toList 1)
  refine ⟨t, ht, ?_⟩
  unfold runFlpWithInput
  rw [hbeta, unwrapO_some, ok_bind]
  have hq : P.withHistogram.xofField vk r.nonce.toList (P.withHistogram.queryRandLen n) = [t] := ht
  dsimp only
  rw [hq]
  have hj : ∀ s b, (P.withHistogram.xofField s b (P.withHistogram.jointRandLen n)).length = 2 := fun s b => hxof s b 2
  generalize hjr : P.withHistogram.xofField _ _ (P.withHistogram.jointRandLen n) = j
  have hjl : j.length = 2 := by rw [← hjr]; exact hj _ _
  obtain ⟨proof, hproof⟩ := (C81_prover (n := n) (c := 2) (x := beta) (pr := r.proveRand) (jr := j)).2
    ⟨hbl, by rw [hpr], hjl⟩
  have hproof' : P.withHistogram.flpProve n beta r.proveRand j = some proof := hproof
  rw [hproof', unwrapO_some, ok_bind]
  obtain ⟨s1, s2⟩ := shareProof_length beta r.inputRand
  obtain ⟨p1, p2⟩ := shareProof_length proof r.proofRand
  split
  · rename_i h1
    have : P.withHistogram.flpQuery n (shareProof beta r.inputRand).1 (shareProof proof r.proofRand).1 [t] j = none := by
      show histQuery n 2 _ _ [t] j 2 = none
      rw [← wireLen_points (by norm_num)] at h1
      match j, hjl with
      | [r0, r1], _ => unfold histQuery; dsimp only; rw [if_neg (by rintro ⟨-, -, h⟩; exact h h1)]
    rw [this]
    rfl
  · rename_i h1
    obtain ⟨v0, v1, e0, e1, -, hd⟩ := C81_complete (P := P) hn h1 bucket beta r.proveRand j proof _ _ _ _ hbeta hproof' s1 s2
      (shareProof_add beta r.inputRand) p1 p2 (shareProof_add proof r.proofRand)
    rw [e0, unwrapO_some, ok_bind, e1, unwrapO_some, ok_bind]
    exact congrArg Except.ok hd

/-- **C110.**  Hence `histograms` passes for every number of buckets and every list of buckets, exactly if no query point
is an interpolation point. -/
theorem C110_histograms {n : Nat} {vk : Block} {inputs : List (Nat × FlpTestRand)} (hn : n < 2 ^ 64)
    (hb : ∀ i ∈ inputs, i.1 < n) (hxof : ∀ seed binder l, (P.xofField seed binder l).length = l)
    (hpr : ∀ i ∈ inputs, i.2.proveRand.length = 4) :
    flpTest P.withHistogram n vk inputs = .ok () ↔
      ∀ i ∈ inputs, ∀ t ∈ P.xofField vk i.2.nonce.toList 1, t ^ Spec.points n 2 ≠ 1 := by
  unfold flpTest
  induction inputs with
  | nil => simp [mapE]
  | cons i is ih =>
    obtain ⟨t, ht, he⟩ := C110_flp (P := P) (vk := vk) (r := i.2) hn (hb i (by simp)) hxof (hpr i (by simp))
    have ih := ih (fun i hi => hb i (by simp [hi])) fun i hi => hpr i (by simp [hi])
    rw [mapE_cons, he]
    simp only [List.forall_mem_cons, ht, List.mem_singleton, forall_eq]
    by_cases h : t ^ Spec.points n 2 = 1
    · rw [if_pos h]
      simp [h]
    · rw [if_neg h, ok_bind, unwrapO_some, ok_bind, assertE_true, ok_bind]
      simp only [h, ne_eq, not_false_eq_true, true_and]
      rw [← ih]
      generalize mapE _ is = z
      cases z <;> simp

/-- ten buckets, inputs 0 to 4, as the test has them -/
def flpInputs : List (Nat × FlpTestRand) :=
  (List.range 5).map fun i => (i, ⟨fun k => k, fun k => 2 * k, Block.zero, [1, 2, 3, 4], (Block.zero, Block.zero)⟩)

theorem toy_xof : ∀ seed binder l, (toy.xofField seed binder l).length = l := fun _ _ l => by simp [toy]

/-- the hypotheses of `C110_histograms` hold, and the test passes -/
example : flpTest toy.withHistogram 10 Block.zero flpInputs = .ok () := by
  rw [C110_histograms (by norm_num) (by decide) toy_xof (by decide)]
  have hp : Spec.points 10 2 = 8 := by decide +kernel
  rw [hp]
  intro i hi t ht
  obtain ⟨k, -, rfl⟩ := List.mem_map.1 hi
  have e : toy.xofField Block.zero Block.zero.toList 1 = [0] := by decide +kernel
  dsimp only at ht
  rw [e, List.mem_singleton] at ht
  subst ht
  norm_num

end Mastic
