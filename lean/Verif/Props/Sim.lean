import Verif.Lemmas.Sim
import Verif.Lemmas.Toy

/-!
# C56: the two servers answer consistently
-/

namespace Mastic

variable {P : Prims}

/-- Lock-step execution of two servers. -/
theorem run_same {c0 c1 : ServerCfg} (hb : c0.build = c1.build) : ∀ {q0 q1 : List Req}
    {k0 k1 : KeyCollection P}, SameShape k0 k1 → List.Forall₂ Spec.Matching q0 q1 →
    (∀ (i : Nat) (r0 r1 : Resp), (Server.run c0 (.running k0) q0).2[i]? = some (.ok r0) →
      (Server.run c1 (.running k1) q1).2[i]? = some (.ok r1) → Spec.Consistent r0 r1) ∧
    ∀ k0' k1', (Server.run c0 (.running k0) q0).1 = .running k0' →
      (Server.run c1 (.running k1) q1).1 = .running k1' → SameShape k0' k1' := by
  intro q0 q1 k0 k1 hs hq
  induction hq generalizing k0 k1 with
  | nil =>
    refine ⟨by simp [Server.run], ?_⟩
    intro k0' k1' h0 h1
    cases h0; cases h1; exact hs
  | @cons a b l0 l1 hab _ ih =>
    have hdead : ∀ (c : ServerCfg) (l : List Req),
        (∀ (i : Nat) (r : Resp), (Server.run c (.poisoned : Server P) l).2[i]? ≠ some (.ok r)) ∧
        ∀ k, (Server.run c (.poisoned : Server P) l).1 ≠ .running k := by
      intro c l
      have h : ∀ l : List Req, (Server.run c (.poisoned : Server P) l).1 = .poisoned ∧
          ∀ r ∈ (Server.run c (.poisoned : Server P) l).2, ∃ p, r = .error p := by
        intro l
        induction l with
        | nil => exact ⟨rfl, by simp [Server.run]⟩
        | cons q l ih =>
          have hh : (Server.handle c (.poisoned : Server P) q).1 = .poisoned ∧
              ∃ p, (Server.handle c (.poisoned : Server P) q).2 = .error p := by
            unfold Server.handle
            cases preLock c q with
            | error p => exact ⟨rfl, p, rfl⟩
            | ok u => exact ⟨rfl, _, rfl⟩
          simp only [Server.run, hh.1]
          refine ⟨ih.1, fun r hr => ?_⟩
          rcases List.mem_cons.1 hr with rfl | hr
          · exact hh.2
          · exact ih.2 r hr
      refine ⟨fun i r hr => ?_, fun k hk => ?_⟩
      · obtain ⟨p, hp⟩ := (h l).2 _ (List.mem_of_getElem? hr)
        cases hp
      · rw [(h l).1] at hk; cases hk
    have hpre : preLock c0 a = preLock c1 b := by
      cases hab with
      | same => cases a <;> simp [preLock, hb]
      | upload => rfl
      | peers => simp [preLock, hb]
    simp only [Server.run]
    cases hp : preLock c0 a with
    | error p =>
      have e0 : Server.handle c0 (.running k0) a = (.running k0, .error p) := by
        simp only [Server.handle, hp]
      have e1 : Server.handle c1 (.running k1) b = (.running k1, .error p) := by
        simp only [Server.handle, ← hpre, hp]
      rw [e0, e1]
      obtain ⟨i1, i2⟩ := ih hs
      refine ⟨?_, i2⟩
      intro i r0 r1 h0 h1
      cases i with
      | zero => simp at h0
      | succ i => exact i1 i r0 r1 (by simpa using h0) (by simpa using h1)
    | ok u =>
      have g0 : Server.handle c0 (.running k0) a = match locked c0 k0 a with
          | .error p => (.poisoned, .error p)
          | .ok (kc', r) => (.running kc', .ok r) := by simp only [Server.handle, hp]; rfl
      have g1 : Server.handle c1 (.running k1) b = match locked c1 k1 b with
          | .error p => (.poisoned, .error p)
          | .ok (kc', r) => (.running kc', .ok r) := by simp only [Server.handle, ← hpre, hp]; rfl
      rw [g0, g1]
      cases e0 : locked c0 k0 a with
      | error p =>
        simp only
        refine ⟨?_, fun k0' k1' h0 _ => absurd h0 ((hdead c0 l0).2 k0')⟩
        intro i r0 r1 h0 h1
        cases i with
        | zero => simp at h0
        | succ i => exact absurd (by simpa using h0) ((hdead c0 l0).1 i r0)
      | ok x0 =>
        obtain ⟨k0', r0⟩ := x0
        cases e1 : locked c1 k1 b with
        | error p =>
          simp only
          refine ⟨?_, fun k0' k1' _ h1 => absurd h1 ((hdead c1 l1).2 k1')⟩
          intro i r0 r1 h0 h1
          cases i with
          | zero => simp at h1
          | succ i => exact absurd (by simpa using h1) ((hdead c1 l1).1 i r1)
        | ok x1 =>
          obtain ⟨k1', r1⟩ := x1
          obtain ⟨hs', hc⟩ := locked_same hs hab e0 e1
          obtain ⟨i1, i2⟩ := ih hs'
          refine ⟨?_, i2⟩
          intro i s0 s1 h0 h1
          cases i with
          | zero =>
            simp only [List.getElem?_cons_zero, Option.some.injEq, Except.ok.injEq] at h0 h1
            rw [← h0, ← h1]; exact hc
          | succ i => exact i1 i s0 s1 (by simpa using h0) (by simpa using h1)

/-- C56. Start two servers with the same bucket count and send them any matching request sequences -
any arguments, any report contents, malformed ones included.  Whenever both answer a request, the
answers are consistent; as long as neither is poisoned they hold the same number of reports with the
same inclusion flags, and their frontiers have the same paths in the same order. -/
theorem C56_lockstep (c0 c1 : ServerCfg) (hb : c0.build = c1.build) (buckets : Nat)
    (q0 q1 : List Req) (hq : List.Forall₂ Spec.Matching q0 q1) :
    (∀ (i : Nat) (r0 r1 : Resp),
      (Server.run c0 (Server.start P c0 buckets) q0).2[i]? = some (.ok r0) →
      (Server.run c1 (Server.start P c1 buckets) q1).2[i]? = some (.ok r1) →
      Spec.Consistent r0 r1) ∧
    ∀ k0 k1, (Server.run c0 (Server.start P c0 buckets) q0).1 = .running k0 →
      (Server.run c1 (Server.start P c1 buckets) q1).1 = .running k1 →
      k0.reportShares.map Prod.fst = k1.reportShares.map Prod.fst ∧
      k0.frontier.map TreeNode.path = k1.frontier.map TreeNode.path ∧
      k0.finalProofs.length = k1.finalProofs.length := by
  obtain ⟨h1, h2⟩ := run_same (P := P) hb (q0 := q0) (q1 := q1)
    (k0 := KeyCollection.new P buckets c0.serverId c0.dataBits Block.zero)
    (k1 := KeyCollection.new P buckets c1.serverId c1.dataBits Block.zero)
    ⟨rfl, rfl, rfl, rfl, rfl⟩ hq
  refine ⟨h1, fun k0 k1 e0 e1 => ?_⟩
  have := h2 k0 k1 e0 e1
  exact ⟨this.flags, paths_of_shape this.frontier, this.final⟩

/-- C56. Consistent answers to a crawl never trip the driver's indexing or its index assertion when it
looks for differing roots (`src/bin/driver.rs:429-436`). -/
theorem C56_driver_assertion_holds (r0 r1 : CrawlResp)
    (h : Spec.Consistent (.crawl r0) (.crawl r1)) : Returns (diffIndices r0 r1) := by
  obtain ⟨-, hi, h0, h1⟩ := h
  unfold diffIndices
  have : Returns (mapE (fun i => do
    let a ← idx r0.roots i
    let b ← idx r1.roots i
    if a ≠ b then do
      let i0 ← idx r0.indices i
      let i1 ← idx r1.indices i
      assertE (i0 == i1)
      .ok [i0]
    else .ok []) (List.range r0.roots.length)) := by
    rw [mapE_returns_iff]
    intro i hr
    have hr' : i < r0.roots.length := List.mem_range.1 hr
    have hr1 : i < r1.roots.length := by rw [h1, ← hi, ← h0]; exact hr'
    simp only [idx_eq_ok_of_lt hr', idx_eq_ok_of_lt hr1, ok_bind]
    split
    · rw [idx_eq_ok_of_lt (by omega), ok_bind, idx_eq_ok_of_lt (by rw [← h1]; exact hr1), ok_bind]
      have : r1.indices[i]'(by rw [← h1]; exact hr1) = r0.indices[i]'(by omega) := by
        simp only [hi]
      rw [this]
      exact ⟨_, by simp only [beq_self_eq_true, assertE_true, ok_bind]; rfl⟩
    · exact ⟨_, rfl⟩
  obtain ⟨ms, hms⟩ := this
  exact ⟨ms.flatten, by rw [hms]; rfl⟩

/-- Matching requests in which the two servers get different shares. -/
example : List.Forall₂ Spec.Matching
    [.addReportShares [.prio3 Block.zero [] [1]], .treeInit, .treeCrawl 1 [] false]
    [.addReportShares [.prio3 Block.zero [] [2]], .treeInit, .treeCrawl 1 [] false] :=
  .cons (.upload _ _ rfl) (.cons (.same _) (.cons (.same _) .nil))

end Mastic
