import Verif.Spec.Typed
import Verif.Props.Tampered

/-!
# C112 as an equivalence, for all runs
-/

namespace Mastic

variable {P : Prims} {α : Type} {c0 c1 : ServerCfg} {bld : Build} {cfg : Config} {mode : DriverMode} {draw : MainDraw}
  {n : Nat} {n0 n1 : Net}

/-- A call that succeeds over a connection has the effect of the handler. -/
theorem netCall_handled {net : Net} {cfg : ServerCfg} {s : Server P} {r : Req} {a : Resp} (hr : Spec.reqFits r = true)
    (hv : ∀ b, (s.handle cfg r).2 = .ok b → Spec.respFits b = true) (h : (netCall net cfg s r).2 = .ok a) :
    Spec.callFits net cfg s r = true := by
  rw [netCall] at h
  split_ifs at h with h1
  have hd := Codec.req_lawful .varint r hr []
  rw [List.append_nil] at hd
  rw [hd] at h
  simp only [Spec.callFits, Bool.and_eq_true, decide_eq_true_eq]
  refine ⟨⟨hr, by omega⟩, ?_⟩
  cases hh : (s.handle cfg r).2 with
  | error p => rfl
  | ok b =>
    simp only [hh] at h
    split_ifs at h with h2
    simp only [Bool.and_eq_true, decide_eq_true_eq]
    exact ⟨hv b hh, by omega⟩

/-- A run that ends over two connections is one in which all messages fit. -/
theorem runFits_of_netRun {p : Prog α} : ∀ {s : Server P × Server P} {x : α × Server P × Server P},
    Spec.runTyped c0 c1 p s = true → p.netRun n0 n1 c0 c1 s = .ok x → Spec.runFits n0 n1 c0 c1 p s = true := by
  induction p with
  | ret => intros; rfl
  | panic => intros; rfl
  | ask r0 r1 k ih =>
    intro s x ht h
    simp only [Spec.runTyped, Bool.and_eq_true] at ht
    obtain ⟨⟨hr0, hr1⟩, ht⟩ := ht
    rw [Prog.netRun] at h
    split at h
    · rename_i a b ha hb
      have both : ∀ a' b', (s.1.handle c0 r0).2 = .ok a' → (s.2.handle c1 r1).2 = .ok b' →
          Spec.respFits a' = true ∧ Spec.respFits b' = true := by
        intro a' b' g0 g1
        simp only [g0, g1, Bool.and_eq_true] at ht
        exact ht.1
      have ok : ∀ {net : Net} {cfg : ServerCfg} {s : Server P} {r : Req} {a : Resp}, Spec.reqFits r = true →
          (netCall net cfg s r).2 = .ok a → ∃ b, (s.handle cfg r).2 = .ok b := by
        intro net cfg s r a hr h
        rw [netCall] at h
        split_ifs at h
        have hd := Codec.req_lawful .varint r hr []
        rw [List.append_nil] at hd
        rw [hd] at h
        cases hh : (s.handle cfg r).2 with
        | error p => simp [hh] at h
        | ok b => exact ⟨b, rfl⟩
      obtain ⟨a', ha'⟩ := ok hr0 ha
      obtain ⟨b', hb'⟩ := ok hr1 hb
      have f0 := netCall_handled hr0 (fun y hy => (both y b' hy hb').1) ha
      have f1 := netCall_handled hr1 (fun y hy => (both a' y ha' hy).2) hb
      rw [netCall_eq f0] at ha h
      rw [netCall_eq f1] at hb h
      simp only [ha, hb, Bool.and_eq_true] at ht
      simp only [Spec.runFits, f0, f1, ha, hb, Bool.true_and]
      exact ih a b ht.2 h
    · cases h
    · cases h

theorem typed_hears {p : Prog α} {s0 s1 t0 t1 : Server P} {sent : List (Req × Req)} {got : List (Resp × Resp)} {a : α}
    (h : Spec.Hears c0 c1 p s0 s1 sent got a t0 t1) (ht : Spec.runTyped c0 c1 p (s0, s1) = true) :
    (∀ r ∈ sent, Spec.reqFits r.1 = true ∧ Spec.reqFits r.2 = true) ∧
      ∀ b ∈ got, Spec.respFits b.1 = true ∧ Spec.respFits b.2 = true := by
  induction h with
  | ret => simp
  | ask r0 r1 k s0 s1 t0 t1 u0 u1 a0 a1 sent got a h0 h1 h ih =>
    simp only [Spec.runTyped, h0, h1, Bool.and_eq_true] at ht
    obtain ⟨⟨x0, x1⟩, ⟨y0, y1⟩, ht⟩ := ht
    obtain ⟨i1, i2⟩ := ih ht
    exact ⟨List.forall_mem_cons.2 ⟨⟨x0, x1⟩, i1⟩, List.forall_mem_cons.2 ⟨⟨y0, y1⟩, i2⟩⟩

/-- **C112, as an equivalence.**  Whatever the mode, the clients, the reports, the states of the servers and the two
connections: the run over the connections ends with the result `x` exactly if the run on values does and all messages of
its conversation fit into frames. -/
theorem C112_iff {kcs : Pair2 P} (ht : Spec.runTyped c0 c1 (mainP P bld cfg mode draw n) (.running kcs.1, .running kcs.2) = true)
    (hl0 : n0.limit < 2 ^ 64) (hl1 : n1.limit < 2 ^ 64) (x : Shown) :
    (∃ s', (mainP P bld cfg mode draw n).netRun n0 n1 c0 c1 (.running kcs.1, .running kcs.2) = .ok (x, s')) ↔
      ∃ out, driverMain c0 c1 bld cfg mode draw n kcs = .ok out ∧ x = out.shown ∧
        ∃ sent got t0 t1,
          Spec.Hears c0 c1 (mainP P bld cfg mode draw n) (.running kcs.1) (.running kcs.2) sent got x t0 t1 ∧
          Spec.inFrames n0 (Spec.seenLens .varint false sent got) ∧
          Spec.inFrames n1 (Spec.seenLens .varint true sent got) := by
  constructor
  · rintro ⟨s', h⟩
    obtain ⟨kcs', -, he⟩ := (netRun_eq (runFits_of_netRun ht h)).1 h
    obtain ⟨out, h1, h2⟩ := bind_eq_ok.1 ((exec_main (c0 := c0) (c1 := c1) bld cfg mode draw n kcs x).1 (by rw [he]; rfl))
    cases h2
    obtain ⟨sent, got, t0, t1, g1, g2⟩ := C112_any (n0 := n0) (n1 := n1) h1 hl0 hl1
    obtain ⟨y1, y2⟩ := typed_hears g1 ht
    refine ⟨out, h1, rfl, sent, got, t0, t1, g1, ?_⟩
    by_contra hc
    rw [(g2 y1 y2).2 hc] at h
    cases h
  · rintro ⟨out, h1, rfl, sent, got, t0, t1, g1, g2⟩
    obtain ⟨sent', got', t0', t1', g3, g4⟩ := C112_any (n0 := n0) (n1 := n1) h1 hl0 hl1
    obtain ⟨rfl, rfl⟩ := hears_unique g1 g3
    obtain ⟨y1, y2⟩ := typed_hears g3 ht
    exact ⟨_, (g4 y1 y2).1 g2⟩

/-- In a run in which all messages fit they are values of the Rust types. -/
theorem runTyped_of_fits {p : Prog α} : ∀ {s : Server P × Server P}, Spec.runFits n0 n1 c0 c1 p s = true →
    Spec.runTyped c0 c1 p s = true := by
  induction p with
  | ret => intros; rfl
  | panic => intros; rfl
  | ask r0 r1 k ih =>
    intro s h
    simp only [Spec.runFits, Spec.callFits, Bool.and_eq_true] at h
    obtain ⟨⟨⟨⟨x0, -⟩, y0⟩, ⟨x1, -⟩, y1⟩, h⟩ := h
    simp only [Spec.runTyped, x0, x1, Bool.true_and]
    cases h0 : (s.1.handle c0 r0).2 <;> cases h1 : (s.2.handle c1 r1).2 <;> simp only [h0, h1, Bool.and_eq_true] at y0 y1 h ⊢
    exact ⟨⟨y0.1, y1.1⟩, ih _ _ h⟩

/-- A whole run of two clients meets the hypothesis. -/
example : Spec.runTyped (toySrv 2 false) (toySrv 2 true)
    (mainP toy .debug ⟨some 2, 2, 2, 2, 2, 2⟩ .weightedHeavyHitters toyDraw 2)
    (.running (toyFresh 2).1, .running (toyFresh 2).2) = true :=
  runTyped_of_fits (n0 := stdNet) (n1 := stdNet) (by decide +kernel)

end Mastic
