import Mathlib.Algebra.BigOperators.Group.Finset.Basic
import Mathlib.Algebra.Order.BigOperators.Group.Finset
import Verif.Spec.Certain
import Verif.Props.PlainHh

/-!
# Lemmas for C111: heavy prefixes by counting
-/

namespace Mastic

theorem sum_countP_fibres {α β : Type} [DecidableEq β] (f : α → β) (S : Finset β) :
    ∀ l : List α, (∀ a ∈ l, f a ∈ S) → ∑ b ∈ S, l.countP (fun a => f a = b) = l.length
  | [], _ => by simp
  | a :: l, h => by
    have ih := sum_countP_fibres f S l fun a ha => h a (by simp [ha])
    simp only [List.countP_cons, List.length_cons, decide_eq_true_eq]
    rw [Finset.sum_add_distrib, ih, Finset.sum_ite_eq, if_pos (h a (by simp))]

/-- Pigeonhole: more than `(T - 1) * K` things with `K` values: some value is taken `T` times. -/
theorem exists_fibre {α β : Type} [DecidableEq β] (f : α → β) {S : Finset β} {l : List α} {K T : Nat}
    (h : ∀ a ∈ l, f a ∈ S) (hK : S.card ≤ K) (hT : (T - 1) * K < l.length) :
    ∃ b ∈ S, T ≤ l.countP fun a => f a = b := by
  by_contra hc
  push Not at hc
  have h1 : ∑ b ∈ S, l.countP (fun a => f a = b) ≤ ∑ _b ∈ S, (T - 1) :=
    Finset.sum_le_sum fun b hb => by have := hc b hb; omega
  rw [sum_countP_fibres f S l h, Finset.sum_const, smul_eq_mul] at h1
  have : S.card * (T - 1) ≤ K * (T - 1) := Nat.mul_le_mul_right _ hK
  rw [Nat.mul_comm K] at this
  omega

theorem isPrefixOf_iff_take {s l : List Bool} : s.isPrefixOf l = true ↔ l.take s.length = s := by
  rw [List.isPrefixOf_iff_prefix, List.prefix_iff_eq_take]
  exact eq_comm

/-- The untampered clients of a run have at most `room` prefixes of length `d - 2`, one of which is therefore heavy if
there are enough of them. -/
theorem heavy_of_room {b d n u T : Nat} {draw : MainDraw} {clients : List (List Bool × Nat)}
    (hcl : clients = (Spec.mainClients b d draw n).filterMap id)
    (hp : ∀ i < n, 1 ≤ (draw.picks i).1 ∧ (draw.picks i).1 ≤ u)
    (h : (T - 1) * Spec.room u d < clients.length) :
    ∃ s : List Bool, s.length = d - 2 ∧ T ≤ (clients.filter fun c => s.isPrefixOf c.1).length := by
  rw [mainClients_untampered] at hcl
  have hmem : ∀ c ∈ clients, c.1.length = d ∧ ∃ j < u, c.1 = (List.range d).map (draw.reports j).bits := by
    intro c hc
    rw [hcl] at hc
    obtain ⟨i, hi, rfl⟩ := List.mem_map.1 hc
    have := hp i (List.mem_range.1 (List.mem_filter.1 hi).1)
    exact ⟨by simp [Spec.drawn], (draw.picks i).1 - 1, by omega, rfl⟩
  have key : ∀ {S : Finset (List Bool)} {K : Nat}, (∀ c ∈ clients, c.1.take (d - 2) ∈ S) → S.card ≤ K →
      (T - 1) * K < clients.length →
      ∃ s : List Bool, s.length = d - 2 ∧ T ≤ (clients.filter fun c => s.isPrefixOf c.1).length := by
    intro S K hS hK hlt
    by_cases hT : T = 0
    · exact ⟨List.replicate (d - 2) false, by simp, by omega⟩
    obtain ⟨s, -, hs⟩ := exists_fibre (fun c : List Bool × Nat => c.1.take (d - 2)) hS hK hlt
    have hpos : 0 < clients.countP fun c => decide (c.1.take (d - 2) = s) := by omega
    obtain ⟨c, hc, hcs⟩ := List.countP_pos_iff.1 hpos
    have hsl : s.length = d - 2 := by
      rw [← of_decide_eq_true hcs, List.length_take, (hmem c hc).1]; omega
    refine ⟨s, hsl, hs.trans (le_of_eq ?_)⟩
    rw [List.countP_eq_length_filter]
    congr 1
    refine List.filter_congr fun c _ => ?_
    rw [Bool.eq_iff_iff, isPrefixOf_iff_take, hsl, decide_eq_true_eq]
  unfold Spec.room at h
  rcases le_total u (2 ^ (d - 2)) with hu | hu
  · rw [min_eq_left hu] at h
    refine key (S := (Finset.range u).image fun j => ((List.range d).map (draw.reports j).bits).take (d - 2)) ?_
      (Finset.card_image_le.trans (by rw [Finset.card_range])) h
    intro c hc
    obtain ⟨-, j, hj, e⟩ := hmem c hc
    rw [e]
    exact Finset.mem_image.2 ⟨j, Finset.mem_range.2 hj, rfl⟩
  · rw [min_eq_right hu] at h
    refine key (S := (Spec.allPaths (d - 2)).toFinset) ?_
      ((List.toFinset_card_le _).trans (by rw [allPaths_length])) h
    intro c hc
    rw [List.mem_toFinset, mem_allPaths, List.length_take, (hmem c hc).1]
    omega

/-! ### A population that is spread out -/

/-- The first `d` binary digits of a number, the lowest first. -/
theorem digits_inj {m x y : Nat} (hx : x < 2 ^ m) (hy : y < 2 ^ m)
    (h : (List.range m).map (fun k => x.testBit k) = (List.range m).map fun k => y.testBit k) : x = y := by
  refine Nat.eq_of_testBit_eq fun k => ?_
  by_cases hk : k < m
  · exact List.map_inj_left.1 h k (List.mem_range.2 hk)
  · have hp : 2 ^ m ≤ 2 ^ k := Nat.pow_le_pow_right (by norm_num) (by omega)
    rw [Nat.testBit_lt_two_pow (hx.trans_le hp), Nat.testBit_lt_two_pow (hy.trans_le hp)]

/-- Numbers below `n` with a given remainder modulo `K`: at most `t` if `n ≤ t * K`. -/
theorem countP_mod_le {n K t r : Nat} (hK : 0 < K) (h : n ≤ t * K) :
    (List.range n).countP (fun i => decide (i % K = r)) ≤ t := by
  by_cases hr : r < K
  · have h1 : ((List.range n).filter fun i => decide (i % K = r)).map (· / K) ⊆ List.range t := by
      intro x hx
      obtain ⟨i, hi, rfl⟩ := List.mem_map.1 hx
      have := List.mem_range.1 (List.mem_filter.1 hi).1
      exact List.mem_range.2 (Nat.div_lt_of_lt_mul (by rw [Nat.mul_comm]; omega))
    have h2 : (((List.range n).filter fun i => decide (i % K = r)).map (· / K)).Nodup := by
      refine List.Nodup.map_on ?_ (List.nodup_range.filter _)
      intro x hx y hy he
      have hx := of_decide_eq_true (List.mem_filter.1 hx).2
      have hy := of_decide_eq_true (List.mem_filter.1 hy).2
      have a := Nat.div_add_mod x K
      have b := Nat.div_add_mod y K
      rw [he, hx] at a
      rw [hy] at b
      omega
    have := (h2.subperm h1).length_le
    rw [List.length_map, List.length_range, ← List.countP_eq_length_filter] at this
    exact this
  · have : (List.range n).countP (fun i => decide (i % K = r)) = 0 := by
      rw [List.countP_eq_zero]
      intro i _
      have := Nat.mod_lt i hK
      simp; omega
    omega

/-- Client `i` uses report `i % K`, whose string is its number in binary. -/
theorem spread_light {b d n u T : Nat} {draw : MainDraw} {clients : List (List Bool × Nat)} (hu : 1 ≤ u)
    (hcl : clients = (Spec.mainClients b d (Spec.population draw (fun i => i % Spec.room u d + 1)
      fun j k => j.testBit k) n).filterMap id)
    (h : n ≤ (T - 1) * Spec.room u d) (hT : 1 ≤ T) (s : List Bool) (hs : s.length = d - 2) :
    (clients.filter fun c => s.isPrefixOf c.1).length < T := by
  have hK : 0 < Spec.room u d := lt_min hu (by positivity)
  have hall : ((List.range n).filter fun i => !Spec.bumps ((Spec.population draw (fun i => i % Spec.room u d + 1)
      fun j k => j.testBit k).picks i).2) = List.range n := List.filter_eq_self.2 fun i _ => rfl
  rw [mainClients_untampered, hall] at hcl
  rw [hcl, ← List.countP_eq_length_filter, List.countP_map]
  have hval : ∀ i, (List.take (d - 2) ((List.range d).map fun k => (i % Spec.room u d).testBit k))
      = (List.range (d - 2)).map fun k => (i % Spec.room u d).testBit k := by
    intro i
    rw [← List.map_take, List.take_range, min_eq_left (by omega)]
  have hle : ∀ i, i % Spec.room u d < 2 ^ (d - 2) := fun i =>
    (Nat.mod_lt i hK).trans_le (min_le_right _ _)
  have hpre : ∀ i, ((fun c : List Bool × Nat => s.isPrefixOf c.1) ∘ fun i => Spec.drawn b d (Spec.MainDraw.of
      (Spec.population draw (fun i => i % Spec.room u d + 1) fun j k => j.testBit k) i)) i = true →
      (List.range (d - 2)).map (fun k => (i % Spec.room u d).testBit k) = s := by
    intro i hi
    have h1 := isPrefixOf_iff_take.1 hi
    rw [hs] at h1
    rw [← hval]
    exact h1
  by_cases hex : ∃ r < 2 ^ (d - 2), (List.range (d - 2)).map (fun k => Nat.testBit r k) = s
  · obtain ⟨r, hr, hrs⟩ := hex
    have : _ ≤ (List.range n).countP (fun i => decide (i % Spec.room u d = r)) :=
      List.countP_mono_left fun i _ hi => decide_eq_true (digits_inj (hle i) hr ((hpre i hi).trans hrs.symm))
    have := this.trans (countP_mod_le hK h)
    omega
  · have : (List.range n).countP ((fun c : List Bool × Nat => s.isPrefixOf c.1) ∘ fun i => Spec.drawn b d (Spec.MainDraw.of
      (Spec.population draw (fun i => i % Spec.room u d + 1) fun j k => j.testBit k) i)) = 0 := by
      rw [List.countP_eq_zero]
      intro i _ hi
      exact hex ⟨_, hle i, hpre i hi⟩
    omega

end Mastic
