import Verif.Spec.Search
import Verif.Lemmas.Toy
import Verif.Lemmas.Search

/-!
# A toy instance with a hash that separates the small trees of the examples of the cheater search
-/

namespace Mastic

/-- Both halves of the input count. -/
def mixHash (d : List Byte) : Vector Byte 32 :=
  Vector.ofFn fun i => d.getD i.1 0 + 3 * d.getD (16 + i.1) 0 + BitVec.ofNat 8 d.length

/-- The toy instance with this hash. -/
def mixToy : Prims := { toy with blake3 := mixHash }

theorem toy_clog (x : Nat) : mixToy.ceilLog2 x = Nat.clog 2 x := by
  show (if x ≤ 1 then 0 else Nat.log2 (x - 1) + 1) = _
  split
  · rename_i h
    rw [Nat.clog_of_right_le_one h]
  · rename_i h
    rw [Nat.log2_eq_log_two]
    have h1 : x - 1 ≠ 0 := by omega
    apply le_antisymm
    · rw [Nat.add_one_le_iff, Nat.lt_clog_iff_pow_lt (by omega)]
      have := Nat.pow_log_le_self 2 h1
      omega
    · rw [Nat.clog_le_iff_le_pow (by omega)]
      have := Nat.lt_pow_succ_log_self (b := 2) (by omega) (x - 1)
      rw [Nat.succ_eq_add_one] at this
      omega

/-- All contiguous parts of a list. -/
def infixesOf {α : Type} (l : List α) : List (List α) := l.tails.flatMap List.inits

theorem mem_infixesOf {α : Type} {l xs : List α} (h : xs <:+: l) : xs ∈ infixesOf l := by
  obtain ⟨s, t, rfl⟩ := h
  refine List.mem_flatMap.2 ⟨xs ++ t, ?_, List.mem_inits _ _ |>.2 (List.prefix_append _ _)⟩
  rw [List.mem_tails, List.append_assoc]
  exact List.suffix_append _ _

/-- A check of `Spec.Separated`. -/
def separatedB (P : Prims) (a b : List Block) : Bool :=
  (infixesOf a).all fun xs => (infixesOf b).all fun ys => xs.length != ys.length ||
    (Spec.merkleInputs P xs).all fun u => (Spec.merkleInputs P ys).all fun v =>
      first16 (P.blake3 u) != first16 (P.blake3 v) || u == v

theorem separated_of {P : Prims} {a b : List Block} (h : separatedB P a b = true) :
    Spec.Separated P a b := by
  intro xs ys hx hy hl u hu v hv he
  simp only [separatedB, List.all_eq_true, Bool.or_eq_true, bne_iff_ne, beq_iff_eq] at h
  rcases h xs (mem_infixesOf hx) ys (mem_infixesOf hy) with h | h
  · exact absurd hl h
  · rcases h u hu v hv with h | h
    · exact absurd he h
    · exact h

/-- The two shares of the toy report of client `k` (`none` if the client failed). -/
def mixShares (k : Nat) (alpha : List Bool) (bucket : Nat) : Option (ReportShare × ReportShare) :=
  match genMasticReport mixToy 2 alpha bucket (toyRand k) with
  | .ok r => some r.toShares
  | .error _ => none

/-- Server states holding the shares of four toy clients with the given flags; the share of the second
server is altered for the clients in `cheat`. -/
def mixReports (flags : List Bool) (cheat : List Nat) : List (Bool × (ReportShare × ReportShare)) :=
  flags.zipIdx.filterMap fun fi => (mixShares fi.2 [true, false] 1).map fun s =>
    (fi.1, if fi.2 ∈ cheat then (s.1, match s.2 with
      | .mastic a k c d => .mastic a { k with cs := k.cs.modify 0 fun c => c.set 0 (c[0] + 1) } c d
      | x => x) else s)

/-- The two report lists. -/
def mixR (flags : List Bool) (cheat : List Nat) (second : Bool) : List (Bool × ReportShare) :=
  (mixReports flags cheat).map fun x => (x.1, if second then x.2.2 else x.2.1)

/-- The server states after the upload and `tree_init` and with the given flags. -/
def MixStates (flags : List Bool) (cheat : List Nat) (kcs : Pair2 mixToy) : Prop :=
  kcs.1.reportShares = mixR flags cheat false ∧ kcs.2.reportShares = mixR flags cheat true ∧
    Spec.LevelState mixToy 2 2 0 [[]] kcs

/-- All keys have two levels. -/
def twoLevels (l : List (Bool × ReportShare)) : Bool :=
  l.all fun r => match r.2 with
    | .mastic _ k _ _ => k.cs.length == k.corWords.length && decide (2 ≤ k.corWords.length)
    | _ => false

theorem twoLevels_iff {l : List (Bool × ReportShare)} (h : twoLevels l = true) :
    ∀ r ∈ l, ∃ key, Spec.keyOf r.2 = some key ∧
      key.cs.length = key.corWords.length ∧ 2 ≤ key.corWords.length := by
  intro r hr
  have := List.all_eq_true.1 h r hr
  obtain ⟨b, s⟩ := r
  cases s with
  | mastic a k c d =>
    simp only [Bool.and_eq_true, beq_iff_eq, decide_eq_true_eq] at this
    exact ⟨k, rfl, this⟩
  | prio3 a c d => cases this

end Mastic
