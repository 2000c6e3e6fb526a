import Verif.Spec.Spy
import Verif.Props.Script

/-!
# Crawls over any set of clients that the collector likes
-/

namespace Mastic

variable {P : Prims} {c0 c1 : ServerCfg}

/-- The clients that `keep` marks. -/
def keepOf {α : Type} (cs : List (Option α)) (keep : List Bool) : List (Option α) :=
  List.zipWith (fun c k => if k then c else none) cs keep

theorem mixed_mask {n d : Nat} {cs : List (Option (List Bool × Nat))} {r0 r1 : List (Bool × ReportShare)}
    (h : Mixed P n d cs r0 r1) : ∀ keep : List Bool,
    Mixed P n d (keepOf cs keep) (Spec.masked r0 keep) (Spec.masked r1 keep) := by
  induction h with
  | nil => intro keep; exact .nil
  | @honest c s0 s1 cs r0 r1 hh hd _ ih =>
    rintro (_ | ⟨k, keep⟩)
    · exact .nil
    · obtain ⟨k0, k1, e0, e1, q, pr, w0, w1, -⟩ := honestPair_facts hh
      rw [hd] at w0 w1
      cases k
      · exact .out w0 w1 (ih keep)
      · exact .honest hh hd (ih keep)
  | @out s0 s1 cs r0 r1 w0 w1 _ ih =>
    rintro (_ | ⟨k, keep⟩)
    · exact .nil
    · cases k <;> exact .out w0 w1 (ih keep)

theorem mixed_of_honest {n d : Nat} : ∀ {clients : List (List Bool × Nat)} {rs0 rs1 : List (Bool × ReportShare)},
    Spec.HonestReports P n clients rs0 rs1 → (∀ c ∈ clients, c.1.length = d) → (∀ r ∈ rs0, r.1 = true) →
    (∀ r ∈ rs1, r.1 = true) → Mixed P n d (clients.map some) rs0 rs1
  | [], rs0, rs1, h, _, _, _ => by
    rw [List.eq_nil_of_length_eq_zero h.1, List.eq_nil_of_length_eq_zero h.2.1]
    exact .nil
  | c :: cs, [], _, h, _, _, _ => by simp [Spec.HonestReports] at h
  | c :: cs, _ :: _, [], h, _, _, _ => by simp [Spec.HonestReports] at h
  | c :: cs, (b0, s0) :: rs0, (b1, s1) :: rs1, h, hl, hf0, hf1 => by
    obtain ⟨h0, h1, h2⟩ := h
    obtain rfl : b0 = true := hf0 (b0, s0) (by simp)
    obtain rfl : b1 = true := hf1 (b1, s1) (by simp)
    exact .honest (c := c) (h2 0 c _ _ rfl rfl rfl) (hl c (by simp)) (mixed_of_honest
      ⟨by simpa using h0, by simpa using h1, fun i c r0 r1 g0 g1 g2 =>
        h2 (i + 1) c r0 r1 (by simpa using g0) (by simpa using g1) (by simpa using g2)⟩
      (fun c hc => hl c (by simp [hc])) (fun r hr => hf0 r (by simp [hr])) fun r hr => hf1 r (by simp [hr]))

theorem Mixed.lengths {n d : Nat} {cs : List (Option (List Bool × Nat))} {r0 r1 : List (Bool × ReportShare)}
    (h : Mixed P n d cs r0 r1) : r0.length = cs.length ∧ r1.length = cs.length ∧
      ∀ c ∈ cs.filterMap id, c.1.length = d ∧ c.2 < n := by
  induction h with
  | nil => simp
  | @honest c s0 s1 cs r0 r1 hh hd _ ih =>
    obtain ⟨_, _, -, -, -, -, -, -, hb⟩ := honestPair_facts hh
    refine ⟨by simp [ih.1], by simp [ih.2.1], ?_⟩
    intro x hx
    rw [List.filterMap_cons] at hx
    rcases List.mem_cons.1 hx with rfl | hx
    · exact ⟨hd, hb⟩
    · exact ih.2.2 x hx
  | @out s0 s1 cs r0 r1 w0 w1 _ ih =>
    exact ⟨by simp [ih.1], by simp [ih.2.1], by simpa using ih.2.2⟩

/-- The two servers hold reports of which the clients `cs` are included and honest. -/
structure Watched (P : Prims) (n d : Nat) (cs : List (Option (List Bool × Nat))) (kcs : Pair2 P) : Prop where
  in0 : kcs.1.inputLen = n
  in1 : kcs.2.inputLen = n
  id0 : kcs.1.serverId = 0
  id1 : kcs.2.serverId ≠ 0
  d0 : kcs.1.depth = some d
  d1 : kcs.2.depth = some d
  mixed : Mixed P n d cs kcs.1.reportShares kcs.2.reportShares

theorem handle_frame {cfg : ServerCfg} {kc : KeyCollection P} {r : Req} {s : Server P} {a : Resp}
    (h : (Server.running kc).handle cfg r = (s, .ok a)) (hr : Spec.isReset r = false) :
    ∃ kc', s = .running kc' ∧ kc'.inputLen = kc.inputLen ∧ kc'.serverId = kc.serverId ∧ kc'.depth = kc.depth := by
  obtain ⟨-, kc', rfl, h2⟩ := talk_step_ok h
  obtain ⟨e1, e2, -, e3, -⟩ := locked_frame h2 hr
  exact ⟨kc', rfl, e1, e2, e3⟩

/-- A conversation without `reset` keeps the parameters of the session. -/
theorem talk_frame {α : Type} {p : Prog α} {s0 s1 t0 t1 : Server P} {sent : List (Req × Req)} {a : α}
    (h : Spec.Talk c0 c1 p s0 s1 sent a t0 t1)
    (hs : ∀ r ∈ sent, Spec.isReset r.1 = false ∧ Spec.isReset r.2 = false) :
    ∀ {k : Pair2 P}, s0 = .running k.1 → s1 = .running k.2 → ∃ k' : Pair2 P, t0 = .running k'.1 ∧ t1 = .running k'.2 ∧
      (k'.1.inputLen = k.1.inputLen ∧ k'.1.serverId = k.1.serverId ∧ k'.1.depth = k.1.depth) ∧
      (k'.2.inputLen = k.2.inputLen ∧ k'.2.serverId = k.2.serverId ∧ k'.2.depth = k.2.depth) := by
  induction h with
  | ret a s0 s1 => intro k h0 h1; exact ⟨k, h0, h1, ⟨rfl, rfl, rfl⟩, rfl, rfl, rfl⟩
  | ask r0 r1 k s0 s1 t0 t1 u0 u1 a0 a1 sent a h0 h1 h ih =>
    rintro k rfl rfl
    obtain ⟨x0, rfl, e0⟩ := handle_frame h0 (hs (r0, r1) (by simp)).1
    obtain ⟨x1, rfl, e1⟩ := handle_frame h1 (hs (r0, r1) (by simp)).2
    obtain ⟨k', g0, g1, f0, f1⟩ := ih (fun r hr => hs r (by simp [hr])) (k := (x0, x1)) rfl rfl
    exact ⟨k', g0, g1, ⟨f0.1.trans e0.1, f0.2.1.trans e0.2.1, f0.2.2.trans e0.2.2⟩,
      f1.1.trans e1.1, f1.2.1.trans e1.2.1, f1.2.2.trans e1.2.2⟩

/-- A crawl with threshold one shows the strings and weights of the clients that are still included, and leaves them
included. -/
theorem tells_spyCrawl {n d num : Nat} {bld : Build} {cfg : Config} {kcs : Pair2 P}
    {cs : List (Option (List Bool × Nat))} (h : Watched P n d cs kcs) (hn : cfg.histBuckets = n) (hd2 : 2 ≤ d)
    (hb : 1 ≤ cfg.queryBatch) (hT : cfg.threshold ≤ 1) (hdb : cfg.dataBits = some d)
    (hne : cs.filterMap id ≠ []) (hlt : (cs.filterMap id).length < 2 ^ 64) :
    ∃ (sent : List (Req × Req)) (out : Shown) (kcs' : Pair2 P),
      Tells c0 c1 (Spec.crawlP P bld cfg num d) kcs sent out kcs' ∧
      Spec.seen out = Spec.heavyHitters n 1 d (cs.filterMap id) ∧ Watched P n d cs kcs' := by
  obtain ⟨hq, hw0, hw1, hF⟩ := h.mixed.facts
  have hT1 : max 1 cfg.threshold = 1 := by omega
  obtain ⟨r0, hr0⟩ : ∃ r0, kcs.1.reportShares = r0 := ⟨_, rfl⟩
  obtain ⟨r1, hr1⟩ : ∃ r1, kcs.2.reportShares = r1 := ⟨_, rfl⟩
  have hM := h.mixed
  rw [hr0, hr1] at hq hF hM
  rw [hr0] at hw0
  rw [hr1] at hw1
  have hk0 := wellFormed_reach (by omega) hw0
  have hk1 := wellFormed_reach (by omega) hw1
  obtain ⟨a0, t0⟩ := treeInit_progress (kc := kcs.1) (hr0 ▸ hk0.mono (Nat.zero_le _))
  obtain ⟨a1, t1⟩ := treeInit_progress (kc := kcs.2) (hr1 ▸ hk1.mono (Nat.zero_le _))
  have hi : driverTreeInit kcs = .ok (a0, a1) := by
    unfold driverTreeInit; rw [t0, ok_bind, t1, ok_bind]
  obtain ⟨root0, f0, w0⟩ := treeInit_fresh t0
  obtain ⟨root1, f1, w1⟩ := treeInit_fresh t1
  have e0 : a0.reportShares = r0 ∧ a0.inputLen = n ∧ a0.serverId = 0 ∧ a0.depth = some d := by
    rw [w0]; exact ⟨hr0, h.in0, h.id0, h.d0⟩
  have e1 : a1.reportShares = r1 ∧ a1.inputLen = n ∧ a1.serverId ≠ 0 ∧ a1.depth = some d := by
    rw [w1]; exact ⟨hr1, h.in1, h.id1, h.d1⟩
  obtain ⟨e0r, e0n, e0s, e0d⟩ := e0
  obtain ⟨e1r, e1n, e1s, e1d⟩ := e1
  have hincl := included_ne hM hne
  have hqi := quiet_inner hq
  have hheavy : Spec.heavyPaths P n (max 1 cfg.threshold) (Spec.keyPairs r0 r1) (d - 1) ≠ [] := by
    obtain ⟨c, hc⟩ := List.exists_mem_of_ne_nil _ hne
    have hcl := (hM.lengths.2.2 c hc).1
    rw [heavyAt_heavyPaths hF hlt (by omega)]
    have hmem : c.1.take (d - 1) ∈ Spec.allPaths (d - 1) := mem_allPaths.2 (by simp [hcl])
    refine List.ne_nil_of_mem (List.mem_filter.2 ⟨hmem, ?_⟩)
    rw [hT1, countOf_holders]
    have : 1 ≤ (Spec.holders (cs.filterMap id) (c.1.take (d - 1))).length := by
      refine List.length_pos_of_mem (a := c) (List.mem_filter.2 ⟨hc, ?_⟩)
      simpa using List.take_prefix _ _
    rw [Bool.or_eq_true]
    exact .inr (decide_eq_true this)
  have hB : Both n d 0 r0 r1 (Spec.heavyPaths P n (max 1 cfg.threshold) (Spec.keyPairs r0 r1) 0) ((a0, a1) : Pair2 P) := by
    rw [heavyPaths_zero]
    have g0 := f0.at (first := true) e0n (by simp [e0s]) e0d (reports := r0) (by rw [e0r])
    have g1 := f1.at (first := false) e1n (by simp [e1s]) e1d (reports := r1) (by rw [e1r])
    have s0 : { a0 with reportShares := r0 } = a0 := by rw [← e0r]
    have s1 : { a1 with reportShares := r1 } = a1 := by rw [← e1r]
    rw [s0] at g0
    rw [s1] at g1
    exact ⟨g0, g1⟩
  obtain ⟨kcs1, hl1, hB1⟩ := tells_level hB c0 c1 cfg num hn (by simp [heavyPaths_zero]) (by omega)
    (hk0.mono (by omega)) (hk1.mono (by omega)) hq.1 hincl
    (digests_quiet hqi (by omega) (heavyPaths_nodup _ _ _ _) heavyPaths_len)
  rw [survivors_heavyPaths] at hB1
  obtain ⟨kcs2, hl2, hB2⟩ := tells_levels c0 c1 bld cfg num hn hqi hincl hk0 hk1 (d - 2) 1 kcs1 (by omega) (by omega)
    hB1 fun l hl _ => heavyPaths_ne_le (by omega) hheavy
  rw [show 1 + (d - 2) = d - 1 by omega] at hB2
  have hn1 : 1 ≤ n := by
    obtain ⟨c, hc⟩ := List.exists_mem_of_ne_nil _ hne
    have := (hM.lengths.2.2 c hc).2
    omega
  obtain ⟨out, g3, p0, p1, hres, -⟩ := runLevelLast_quiet hB2 c0 c1 cfg num hn hn1 (by simp [hdb]) hb hk0
    hk1 hq.1 (.inl (proofs_quiet hq (heavyPaths_nodup _ _ _ _)
      fun p hp => by rw [heavyPaths_len p hp]; omega))
  have hlast := tells_last hB2 c0 c1 cfg num hn hb hk0 hk1 hq.1 g3
  obtain ⟨x, hx⟩ := tells_exec (c0 := c0) (c1 := c1) (p := callDone .treeInit .treeInit) (kcs := kcs) (a := ())
    (kcs' := (a0, a1)) (by rw [exec_treeInit, hi, ok_bind])
  obtain rfl := tells_done hx
  have elv : levelsP P bld cfg num (List.range' 1 (d - 1)) = (levelP cfg num >>= fun _ =>
      levelsP P bld cfg num (List.range' 2 (d - 2))) := by
    rw [show d - 1 = (d - 2) + 1 by omega, List.range'_succ, levelsP, if_neg (by omega)]
    rfl
  have eshift : ∀ ls ls' : List Nat, ls.length = ls'.length → 0 ∉ ls → 0 ∉ ls' →
      levelsP P bld cfg num ls = levelsP P bld cfg num ls' := by
    intro ls
    induction ls with
    | nil => intro ls' hl _ _; rw [List.length_eq_zero_iff.1 hl.symm]
    | cons l ls ih =>
      rintro (_ | ⟨l', ls'⟩) hl h1 h2
      · cases hl
      · have q1 : l ≠ 0 := fun e => h1 (by simp [e])
        have q2 : l' ≠ 0 := fun e => h2 (by simp [e])
        rw [levelsP, levelsP, if_neg q1, if_neg q2, ih ls' (by simpa using hl) (fun e => h1 (by simp [e]))
          fun e => h2 (by simp [e])]
  rw [eshift (List.range' 2 (d - 2)) (List.range' 1 (d - 2)) (by simp) (by simp) (by simp)] at elv
  have hlv := hl1.bind (f := fun _ => levelsP P bld cfg num (List.range' 1 (d - 2))) hl2
  rw [← elv] at hlv
  have hall := hx.bind (f := fun _ => do
    levelsP P bld cfg num (List.range' 1 (d - 1))
    levelLastP cfg num) (hlv.bind (f := fun _ => levelLastP cfg num) hlast)
  refine ⟨_, _, _, hall, ?_, ?_⟩
  · show out.results.map (fun r => (r.path, r.value)) = _
    rw [hres, survivors_heavyPaths, show d - 1 + 1 = d by omega, hT1]
    exact results_clients hF (by omega) hlt fun c hc => (hM.lengths.2.2 c hc).1
  · have both : ∀ l : List Req, (∀ q ∈ l, Spec.isReset q = false) →
        ∀ r ∈ Spec.toBoth l, Spec.isReset r.1 = false ∧ Spec.isReset r.2 = false := by
      intro l hl r hr
      obtain ⟨q, hq, rfl⟩ := List.mem_map.1 hr
      exact ⟨hl q hq, hl q hq⟩
    obtain ⟨k', q0, q1, ⟨i0, j0, l0⟩, i1, j1, l1⟩ := talk_frame hall (k := kcs) (by
      intro r hr
      rcases List.mem_append.1 hr with hr | hr
      · rw [List.mem_singleton.1 hr]; exact ⟨rfl, rfl⟩
      rcases List.mem_append.1 hr with hr | hr
      · rcases List.mem_append.1 hr with hr | hr
        · exact both _ (by simp [Spec.isReset]) r hr
        · refine both _ (fun q hq => ?_) r hr
          obtain ⟨l, -, hq⟩ := List.mem_flatMap.1 hq
          simp only [List.mem_cons, List.not_mem_nil, or_false] at hq
          rcases hq with rfl | rfl <;> rfl
      · refine both _ (fun q hq => ?_) r hr
        simp only [List.mem_append, List.mem_cons, List.mem_map, List.not_mem_nil, or_false] at hq
        rcases hq with (rfl | ⟨b, -, rfl⟩) | rfl | rfl <;> rfl) rfl rfl
    have z0 : k'.1 = out.kcs.1 := by injection q0 with e; exact e.symm
    have z1 : k'.2 = out.kcs.2 := by injection q1 with e; exact e.symm
    rw [z0] at i0 j0 l0
    rw [z1] at i1 j1 l1
    exact ⟨i0.trans h.in0, i1.trans h.in1, j0.trans h.id0, by rw [j1]; exact h.id1, l0.trans h.d0, l1.trans h.d1,
      by rw [p0, p1]; exact hM⟩

end Mastic
