import Verif.Lemmas.Startup
import Verif.Props.Main

/-!
# C68: starting the programs from the command line
-/

namespace Mastic

variable {P : Prims}

/-- **C68 fails** for programs built with clap's debug assertions, as cargo's debug profile does: `-s` is declared twice, so
that neither program starts, whatever the command line. -/
theorem C68_false_debug (env : Env) (build : Build)
    (iter : List (Nat × List (List Field128)) → List (Nat × List (List Field128)))
    (iter_perm : ∀ l, (iter l).Perm l) (busy : List String) (servers : List (Running P)) (draw : MainDraw)
    (argv : List Occ) :
    serverStart P env true build iter iter_perm busy argv = .error (.panic .debugAssertion) ∧
    driverStart env true build servers draw argv = .error (.panic .debugAssertion) := by
  have hs : clapDeclOk (argDefs true false false) = false := by decide
  have hd : clapDeclOk (argDefs false true true) = false := by decide
  constructor
  · unfold serverStart getArgs getMatches
    rw [hs]; rfl
  · unfold driverStart getArgs getMatches
    rw [hd]; rfl

/-- C68. Exactly when and how a server starts: the command line is complete, the file is readable, the id is 0 or 1 in
any notation, the number of buckets is accepted and the address is free.  It then waits on the address that *the file*
gives for its id, with the file's string length and empty state. -/
theorem C68_server {env : Env} {build : Build}
    {iter : List (Nat × List (List Field128)) → List (Nat × List (List Field128))}
    {iter_perm : ∀ l, (iter l).Perm l} {busy : List String} {argv : List Occ} {r : Running P} :
    serverStart P env false build iter iter_perm busy argv = .ok r ↔
      Spec.Accepted Spec.serverOpts [.config, .serverId] argv ∧
      ∃ (file v addr : String) (c : FileConfig) (id : Int), Spec.given argv .config = [file] ∧
        Spec.given argv .serverId = [v] ∧ Spec.FileHas env file c ∧ Spec.Denotes v id ∧
        (id = 0 ∧ addr = c.server0 ∨ id = 1 ∧ addr = c.server1) ∧
        P.histOk c.histBuckets = true ∧ addr ∉ busy ∧
        r = ⟨addr, ⟨id, c.dataBits, build, iter, iter_perm⟩, ⟨c.histBuckets, id, Block.zero, c.dataBits, [], [], [], [],
          [], []⟩⟩ := by
  have single : ∀ {l : List String} {a : String}, l.length ≤ 1 → l.head? = some a → l = [a] := by
    intro l a h1 h2
    cases l with
    | nil => cases h2
    | cons b l =>
      have : l = [] := by cases l <;> simp_all
      subst this; cases h2; rfl
  unfold serverStart
  rw [bindS_eq_ok]
  constructor
  · rintro ⟨args, ha, h⟩
    obtain ⟨acc, file, v, hf, hv, hc, hd, -⟩ := getArgs_server.1 ha
    obtain ⟨addr, haddr, h⟩ := bindS_eq_ok.1 h
    split at h
    · cases h
    rename_i hh
    split at h
    · cases h
    rename_i hb
    cases h
    refine ⟨acc, file, v, addr, args.config, args.serverId, single (acc.once _ (by decide)) hf,
      single (acc.once _ (by decide)) hv, hc, hd, ?_, by simpa using hh, hb, rfl⟩
    unfold serverAddr at haddr
    split at haddr
    · rename_i e; cases haddr; exact .inl ⟨e, rfl⟩
    split at haddr
    · rename_i e; cases haddr; exact .inr ⟨e, rfl⟩
    cases haddr
  · rintro ⟨acc, file, v, addr, c, id, hf, hv, hc, hd, haddr, hh, hb, rfl⟩
    refine ⟨⟨c, id, 0, .fin 0⟩, getArgs_server.2 ⟨acc, file, v, by rw [hf]; rfl, by rw [hv]; rfl, hc, hd, ?_, ?_,
      rfl, rfl⟩, ?_⟩
    · rcases haddr with ⟨rfl, -⟩ | ⟨rfl, -⟩ <;> norm_num
    · rcases haddr with ⟨rfl, -⟩ | ⟨rfl, -⟩ <;> norm_num
    · have : serverAddr ⟨c, id, 0, .fin 0⟩ = .ok addr := by
        rcases haddr with ⟨rfl, rfl⟩ | ⟨rfl, rfl⟩ <;> rfl
      rw [this, ok_bindS]
      simp only [hh, hb, Bool.not_true, Bool.false_eq_true, if_false]
      rfl

/-- **C68 fails.**  The options for the server addresses have no effect on a server: with or without them it starts in the
same state on the same address. -/
theorem C68_false_server_override {env : Env} {build : Build}
    {iter : List (Nat × List (List Field128)) → List (Nat × List (List Field128))}
    {iter_perm : ∀ l, (iter l).Perm l} {busy : List String} {argv : List Occ} {r : Running P} {x y : String}
    (h : serverStart P env false build iter iter_perm busy argv = .ok r)
    (h0 : Spec.given argv .server0 = []) (h1 : Spec.given argv .server1 = []) :
    serverStart P env false build iter iter_perm busy
      (argv ++ [⟨.long "server-0", x⟩, ⟨.long "server-1", y⟩]) = .ok r := by
  obtain ⟨acc, file, v, addr, c, id, hf, hv, rest⟩ := C68_server.1 h
  have hg : ∀ a, Spec.given (argv ++ [⟨.long "server-0", x⟩, ⟨.long "server-1", y⟩]) a
      = Spec.given argv a ++ (match a with
        | .server0 => [x]
        | .server1 => [y]
        | _ => []) := by
    intro a
    unfold Spec.given
    rw [List.filter_append, List.map_append]
    cases a <;> simp [Spec.flags]
  refine C68_server.2 ⟨⟨?_, ?_, ?_⟩, file, v, addr, c, id, ?_, ?_, rest⟩
  · intro o ho
    rcases List.mem_append.1 ho with ho | ho
    · exact acc.known o ho
    · rcases List.mem_cons.1 ho with rfl | ho
      · exact ⟨.server0, by decide, by simp [Spec.flags]⟩
      · have := List.mem_singleton.1 ho
        subst this
        exact ⟨.server1, by decide, by simp [Spec.flags]⟩
  · intro a ha
    rw [hg]
    cases a <;> simp [h0, h1, acc.once _ ha]
  · intro a ha
    rw [hg]
    have := acc.required a ha
    simp [this]
  · rw [hg, hf]; rfl
  · rw [hg, hv]; rfl

theorem connect_eq_ok {servers : List (Running P)} {addr : String} {s : Running P} :
    connect servers addr = .ok s ↔ servers.find? (fun s => s.addr == addr) = some s := by
  unfold connect
  split
  · rename_i e; rw [e]; simp
  · rename_i e; rw [e]; simp

/-- C68. What the driver does: with a complete command line, a readable file, a number of clients and a share of
misbehaving ones below 0.8 it connects to the two addresses, those of the file unless overridden, and runs. -/
theorem C68_driver {env : Env} {bld : Build} {servers : List (Running P)} {draw : MainDraw} {argv : List Occ}
    {file v : String} {c : FileConfig} {n : Nat} {m : F64} {s0 s1 : Running P}
    (acc : Spec.Accepted Spec.driverOpts [.config, .numClients] argv) (hf : Spec.given argv .config = [file])
    (hv : Spec.given argv .numClients = [v]) (hc : Spec.FileHas env file c) (hn : Spec.DenotesNat v n)
    (hn64 : n < 2 ^ 64)
    (hm : Spec.given argv .malicious = [] ∧ m = .fin 0 ∨
      ∃ t, Spec.given argv .malicious = [t] ∧ env.parseF32 t = some m)
    (hr : ∃ q : ℚ, m = .fin q ∧ 0 ≤ q ∧ q < 13421773 / 16777216)
    (h0 : servers.find? (fun s => s.addr == ((Spec.given argv .server0).head?).getD c.server0) = some s0)
    (h1 : servers.find? (fun s => s.addr == ((Spec.given argv .server1).head?).getD c.server1) = some s1)
    (hne : s0.addr ≠ s1.addr) :
    driverStart env false bld servers draw argv =
      (driverMain s0.cfg s1.cfg bld (c.toConfig n) c.mode.toDriverMode
        { draw with maliciousOk := true, zipfOk := zipfAccepts c.zipfExponent } n (s0.kc, s1.kc)).mapError
        StartErr.panic := by
  have ha : getArgs env false false true true argv = .ok ⟨{ c with
      server0 := ((Spec.given argv .server0).head?).getD c.server0
      server1 := ((Spec.given argv .server1).head?).getD c.server1 }, -1, n, m⟩ := by
    refine getArgs_driver.2 ⟨acc, file, c, v, by rw [hf]; rfl, by rw [hv]; rfl, hc, rfl, hn, hn64, rfl, ?_⟩
    rcases hm with ⟨e, rfl⟩ | ⟨t, e, ht⟩
    · rw [e]; rfl
    · rw [e]; exact ht
  have hrange : maliciousInRange m = true := by
    obtain ⟨q, rfl, h⟩ := hr
    exact decide_eq_true h
  unfold driverStart
  rw [ha, ok_bindS]
  simp only [hrange, Bool.not_true, Bool.false_eq_true, if_false]
  rw [connect_eq_ok.2 h0, ok_bindS, connect_eq_ok.2 h1, ok_bindS, if_neg hne]
  show (match driverMain s0.cfg s1.cfg bld (c.toConfig n) c.mode.toDriverMode
        { draw with maliciousOk := true, zipfOk := zipfAccepts c.zipfExponent } n (s0.kc, s1.kc) with
    | .ok out => Except.ok out
    | .error p => .error (StartErr.panic p)) = _
  cases driverMain s0.cfg s1.cfg bld (c.toConfig n) c.mode.toDriverMode
    { draw with maliciousOk := true, zipfOk := zipfAccepts c.zipfExponent } n (s0.kc, s1.kc) <;> rfl

/-- C68. Conversely, a run that ends with output had all of that. -/
theorem C68_driver_requires {env : Env} {bld : Build} {servers : List (Running P)} {draw : MainDraw}
    {argv : List Occ} {out : MainOut P} (h : driverStart env false bld servers draw argv = .ok out) :
    Spec.Accepted Spec.driverOpts [.config, .numClients] argv ∧
    ∃ (file v : String) (c : FileConfig) (n : Nat) (s0 s1 : Running P),
      file ∈ Spec.given argv .config ∧ v ∈ Spec.given argv .numClients ∧ Spec.FileHas env file c ∧
      Spec.DenotesNat v n ∧
      (∀ t ∈ Spec.given argv .malicious, ∃ q : ℚ, env.parseF32 t = some (.fin q) ∧ 0 ≤ q ∧
        q < 13421773 / 16777216) ∧
      s0 ∈ servers ∧ s1 ∈ servers ∧ s0.addr = ((Spec.given argv .server0).head?).getD c.server0 ∧
      s1.addr = ((Spec.given argv .server1).head?).getD c.server1 ∧ s0.addr ≠ s1.addr ∧
      driverMain s0.cfg s1.cfg bld (c.toConfig n) c.mode.toDriverMode
        { draw with maliciousOk := true, zipfOk := zipfAccepts c.zipfExponent } n (s0.kc, s1.kc) = .ok out := by
  unfold driverStart at h
  obtain ⟨args, ha, h⟩ := bindS_eq_ok.1 h
  obtain ⟨acc, file, c, v, hf, hv, hc, hcfg, hn, hn64, -, hm⟩ := getArgs_driver.1 ha
  split at h
  · cases h
  rename_i hrange
  obtain ⟨s0, h0, h⟩ := bindS_eq_ok.1 h
  obtain ⟨s1, h1, h⟩ := bindS_eq_ok.1 h
  split at h
  · cases h
  rename_i hne
  rw [hcfg] at h h0 h1
  replace h0 := connect_eq_ok.1 h0
  replace h1 := connect_eq_ok.1 h1
  refine ⟨acc, file, v, c, args.numClients, s0, s1, List.mem_of_mem_head? hf, List.mem_of_mem_head? hv, hc, hn, ?_,
    List.mem_of_find?_eq_some h0, List.mem_of_find?_eq_some h1,
    by simpa using List.find?_some h0, by simpa using List.find?_some h1, hne, ?_⟩
  · intro t ht
    have hl := acc.once .malicious (by decide)
    obtain ⟨l, hl'⟩ : ∃ l, Spec.given argv .malicious = l := ⟨_, rfl⟩
    rw [hl'] at hl ht hm
    have : l = [t] := by
      match l, hl, ht with
      | [a], _, ht => rw [List.mem_singleton.1 ht]
    subst this
    unfold maliciousInRange at hrange
    simp only [List.head?_cons] at hm
    cases hx : args.malicious with
    | nan => rw [hx] at hrange; simp at hrange
    | inf b => rw [hx] at hrange; simp at hrange
    | fin q =>
      rw [hx] at hrange hm
      refine ⟨q, hm, ?_⟩
      simpa using hrange
  · split at h
    · rename_i e; cases h; exact e
    · cases h

/-- **C68 fails.**  `-s`, which the help text offers for both server addresses, is the address of server 0 only;
giving it twice, once for each, ends the program. -/
theorem C68_false_short_flag (env : Env) (argv : List Occ) (a b : String) :
    (∀ args, getArgs env false false true true (⟨.short 's', a⟩ :: argv) = .ok args →
      args.config.server0 = a ∧
      (Spec.given argv .server1 = [] → ∃ file c, Spec.FileHas env file c ∧ args.config.server1 = c.server1)) ∧
    (∀ (bld : Build) (servers : List (Running P)) (draw : MainDraw) (out : MainOut P),
      driverStart env false bld servers draw (⟨.short 's', a⟩ :: ⟨.short 's', b⟩ :: argv) ≠ .ok out) := by
  constructor
  · intro args h
    obtain ⟨acc, file, c, v, hf, hv, hc, hcfg, -⟩ := getArgs_driver.1 h
    rw [hcfg]
    refine ⟨by simp [Spec.given, Spec.flags], fun h1 => ⟨file, c, hc, ?_⟩⟩
    have : Spec.given (⟨.short 's', a⟩ :: argv) .server1 = [] := by
      unfold Spec.given at h1 ⊢
      rw [List.filter_cons_of_neg (by simp [Spec.flags])]
      exact h1
    simp [this]
  · intro bld servers draw out h
    have hl := (C68_driver_requires h).1.once .server0 (by decide)
    simp [Spec.given, Spec.flags] at hl

/-- **C68 (partial).** (Missing: builds with debug assertions and the address options.)  The documented way to
start everything: two servers on the file with ids 0 and 1, the driver on the same file with a number of clients.  The driver then runs against a server 0 and a server 1 with the file's string length. -/
theorem C68_system_partial {env : Env} {b0 b1 bld : Build}
    {it0 it1 : List (Nat × List (List Field128)) → List (Nat × List (List Field128))}
    {ip0 : ∀ l, (it0 l).Perm l} {ip1 : ∀ l, (it1 l).Perm l} {argv0 argv1 argv : List Occ} {r0 r1 : Running P}
    {file v0 v1 v : String} {c : FileConfig} {n : Nat} {draw : MainDraw} (hc : Spec.FileHas env file c)
    (hr0 : serverStart P env false b0 it0 ip0 [] argv0 = .ok r0) (hf0 : Spec.given argv0 .config = [file])
    (hv0 : Spec.given argv0 .serverId = [v0]) (hid0 : Spec.Denotes v0 0)
    (hr1 : serverStart P env false b1 it1 ip1 [r0.addr] argv1 = .ok r1) (hf1 : Spec.given argv1 .config = [file])
    (hv1 : Spec.given argv1 .serverId = [v1]) (hid1 : Spec.Denotes v1 1)
    (acc : Spec.Accepted Spec.driverOpts [.config, .numClients] argv) (hf : Spec.given argv .config = [file])
    (hv : Spec.given argv .numClients = [v]) (hn : Spec.DenotesNat v n) (hn64 : n < 2 ^ 64)
    (ho0 : Spec.given argv .server0 = []) (ho1 : Spec.given argv .server1 = [])
    (hm : ∀ t ∈ Spec.given argv .malicious, ∃ q : ℚ, env.parseF32 t = some (.fin q) ∧ 0 ≤ q ∧
      q < 13421773 / 16777216) :
    r0.cfg = ⟨0, c.dataBits, b0, it0, ip0⟩ ∧ r1.cfg = ⟨1, c.dataBits, b1, it1, ip1⟩ ∧
    driverStart env false bld [r0, r1] draw argv =
      (driverMain r0.cfg r1.cfg bld (c.toConfig n) c.mode.toDriverMode
        { draw with maliciousOk := true, zipfOk := zipfAccepts c.zipfExponent } n (r0.kc, r1.kc)).mapError
        StartErr.panic := by
  have hfile : ∀ {c'}, Spec.FileHas env file c' → c' = c := by
    rintro c' ⟨t, h1, h2⟩
    obtain ⟨t', h1', h2'⟩ := hc
    rw [h1] at h1'; cases h1'
    rw [h2] at h2'; cases h2'; rfl
  have huniq : ∀ {s : String} {a b : Int}, Spec.Denotes s a → Spec.Denotes s b → (a = 0 ∨ a = 1) → (b = 0 ∨ b = 1) →
      a = b := by
    intro s a b h1 h2 ha hb
    have e1 := parseI8_eq_some.2 ⟨h1, by omega, by omega⟩
    have e2 := parseI8_eq_some.2 ⟨h2, by omega, by omega⟩
    rw [e1] at e2; exact Option.some.inj e2
  obtain ⟨-, f0, w0, a0, c0, i0, g1, g2, g3, g4, g5, -, -, rfl⟩ := C68_server.1 hr0
  obtain ⟨-, f1, w1, a1, c1, i1, k1, k2, k3, k4, k5, -, k6, rfl⟩ := C68_server.1 hr1
  rw [hf0] at g1; cases g1
  rw [hv0] at g2; cases g2
  rw [hf1] at k1; cases k1
  rw [hv1] at k2; cases k2
  cases hfile g3
  cases hfile k3
  have e0 : i0 = 0 := huniq g4 hid0 (g5.imp And.left And.left) (.inl rfl)
  have e1 : i1 = 1 := huniq k4 hid1 (k5.imp And.left And.left) (.inr rfl)
  subst e0; subst e1
  have ea0 : a0 = c.server0 := by rcases g5 with ⟨-, h⟩ | ⟨h, -⟩; exact h; cases h
  have ea1 : a1 = c.server1 := by rcases k5 with ⟨h, -⟩ | ⟨-, h⟩; cases h; exact h
  subst ea0; subst ea1
  have hne : c.server1 ≠ c.server0 := by simpa using k6
  refine ⟨rfl, rfl, ?_⟩
  have hl := acc.once .malicious (by decide)
  cases hg : Spec.given argv .malicious with
  | nil =>
    refine C68_driver acc hf hv hc hn hn64 (m := .fin 0) (.inl ⟨hg, rfl⟩) ⟨0, rfl, by norm_num⟩ ?_ ?_ hne.symm
    · simp [ho0]
    · simp [ho1, hne.symm]
  | cons t l =>
    rw [hg] at hl hm
    have hl' : l = [] := by cases l <;> simp_all
    subst hl'
    obtain ⟨q, ht, hq⟩ := hm t (by simp)
    refine C68_driver acc hf hv hc hn hn64 (m := .fin q) (.inr ⟨t, hg, ht⟩) ⟨q, rfl, hq⟩ ?_ ?_ hne.symm
    · simp [ho0]
    · simp [ho1, hne.symm]

/-- C68. From the command lines to the printed result, for the documented way to start a weighted-heavy-hitters run. -/
theorem C68_heavy_hitters {env : Env} {b0 b1 bld : Build}
    {it0 it1 : List (Nat × List (List Field128)) → List (Nat × List (List Field128))}
    {ip0 : ∀ l, (it0 l).Perm l} {ip1 : ∀ l, (it1 l).Perm l} {argv0 argv1 argv : List Occ} {r0 r1 : Running P}
    {file v0 v1 v : String} {c : FileConfig} {n d : Nat} {t : F64} {draw : MainDraw} (hc : Spec.FileHas env file c)
    (hr0 : serverStart P env false b0 it0 ip0 [] argv0 = .ok r0) (hf0 : Spec.given argv0 .config = [file])
    (hv0 : Spec.given argv0 .serverId = [v0]) (hid0 : Spec.Denotes v0 0)
    (hr1 : serverStart P env false b1 it1 ip1 [r0.addr] argv1 = .ok r1) (hf1 : Spec.given argv1 .config = [file])
    (hv1 : Spec.given argv1 .serverId = [v1]) (hid1 : Spec.Denotes v1 1)
    (acc : Spec.Accepted Spec.driverOpts [.config, .numClients] argv) (hf : Spec.given argv .config = [file])
    (hv : Spec.given argv .numClients = [v]) (hn : Spec.DenotesNat v n) (hn64 : n < 2 ^ 64)
    (ho0 : Spec.given argv .server0 = []) (ho1 : Spec.given argv .server1 = [])
    (hm : ∀ t ∈ Spec.given argv .malicious, ∃ q : ℚ, env.parseF32 t = some (.fin q) ∧ 0 ≤ q ∧
      q < 13421773 / 16777216)
    (hmode : c.mode = .weightedHeavyHitters t) (hd : c.dataBits = some d) (hd2 : 2 ≤ d)
    (hzipf : ∃ q : ℚ, c.zipfExponent = .fin q ∧ 0 < q) (hhist : P.histOk c.histBuckets = true)
    (hpos : 1 ≤ c.histBuckets ∧ 1 ≤ c.uniqueBuckets ∧ 1 ≤ c.addBatch ∧ 1 ≤ c.queryBatch)
    (hpicks : ∀ i < n, 1 ≤ (draw.picks i).1 ∧ (draw.picks i).1 ≤ c.uniqueBuckets)
    (hprove : Spec.Proves P (c.toConfig n) draw)
    (hcomp : ∀ i < n, Spec.FlpCompleteAt P c.histBuckets (P.xofField draw.verifyKey
      (Spec.MainDraw.of draw i).rand.nonce.toList (P.queryRandLen c.histBuckets)))
    (hrej : Spec.BumpsRejected P c.histBuckets d 0 1 draw n)
    {clients : List (List Bool × Nat)}
    (hcl : clients = (Spec.mainClients c.histBuckets d draw n).filterMap id) (hne : clients ≠ [])
    (hpre : d = 2 ∨ ∃ s : List Bool, s.length = d - 2 ∧
      max 1 (scaledThreshold t n) ≤ (clients.filter fun c => s.isPrefixOf c.1).length) :
    ∃ out, driverStart env false bld [r0, r1] draw argv = .ok (.whh out) ∧
      out.results.map (fun r => (r.path, r.value))
        = Spec.heavyHitters c.histBuckets (max 1 (scaledThreshold t n)) d clients := by
  obtain ⟨e0, e1, hrun⟩ := C68_system_partial (bld := bld) (draw := draw) hc hr0 hf0 hv0 hid0 hr1 hf1 hv1 hid1 acc hf hv hn
    hn64 ho0 ho1 hm
  have hT : (c.toConfig n).threshold = scaledThreshold t n := by simp only [FileConfig.toConfig, hmode]
  have hz : zipfAccepts c.zipfExponent = true := by
    obtain ⟨q, e, hq⟩ := hzipf
    rw [e]; exact decide_eq_true hq
  obtain ⟨out, g1, g2, -⟩ := (C62_weighted_heavy_hitters (P := P) (c0 := r0.cfg) (c1 := r1.cfg) (bld := bld)
    (cfg := c.toConfig n) (draw := { draw with maliciousOk := true, zipfOk := zipfAccepts c.zipfExponent }) (n := n)
    (d := d) (kcs := (r0.kc, r1.kc)) ⟨rfl, hz, hhist, hpos.1, hpos.2.1, hpos.2.2.1, hpos.2.2.2, hpicks⟩ hprove hd
    (by rw [e0]; exact hd) (by rw [e1]; exact hd) hd2 (by rw [e0]) (by rw [e1]; exact one_ne_zero) hcomp
    (by rw [e0, e1]; exact hrej) hcl hne hn64).1 (by rw [hT]; exact hpre)
  refine ⟨out, ?_, by rw [← hT]; exact g2⟩
  rw [hrun, hmode]
  exact congrArg (Except.mapError StartErr.panic) g1

/-! ### A start of everything -/

/-- One file with a configuration of two bits and two buckets. -/
def toyFile : FileConfig where
  dataBits := some 2
  histBuckets := 2
  addBatch := 2
  queryBatch := 2
  uniqueBuckets := 2
  mode := .weightedHeavyHitters (.fin (2 / 3))
  zipfExponent := .fin (103 / 100)
  server0 := "0.0.0.0:8000"
  server1 := "0.0.0.0:8001"

/-- A file system with this file; the only floating-point number understood is 0.3. -/
def toyEnv : Env where
  readFile := fun f => if f = "whh.toml" then some "text" else none
  parseToml := fun _ => some toyFile
  parseF32 := fun s => if s = "0.3" then some (.fin (3 / 10)) else none

/-- `--config whh.toml -i …` -/
def toyServerArgs (id : String) : List Occ := [⟨.long "config", "whh.toml"⟩, ⟨.short 'i', id⟩]

/-- `-c whh.toml -n 3 --malicious 0.3` -/
def toyDriverArgs : List Occ := [⟨.short 'c', "whh.toml"⟩, ⟨.short 'n', "3"⟩, ⟨.long "malicious", "0.3"⟩]

theorem toy_fileHas : Spec.FileHas toyEnv "whh.toml" toyFile := ⟨"text", rfl, rfl⟩

theorem toy_accepted : Spec.Accepted Spec.driverOpts [.config, .numClients] toyDriverArgs :=
  ⟨by decide, by decide, by decide⟩

theorem toy_denotes : Spec.Denotes "0" 0 ∧ Spec.Denotes "+01" 1 ∧ Spec.DenotesNat "3" 3 :=
  ⟨(parseI8_eq_some.1 (by decide)).1, (parseI8_eq_some.1 (by decide)).1, (parseUsize_eq_some.1 (by decide)).1⟩

/-- The two servers started from the command line; the second one with its id written `+01`. -/
theorem toy_servers :
    serverStart toy toyEnv false .debug List.reverse List.reverse_perm [] (toyServerArgs "0")
      = .ok ⟨"0.0.0.0:8000", toyCfg 0 (some 2) .debug, KeyCollection.new toy 2 0 (some 2) Block.zero⟩ ∧
    serverStart toy toyEnv false .release List.reverse List.reverse_perm ["0.0.0.0:8000"] (toyServerArgs "+01")
      = .ok ⟨"0.0.0.0:8001", toyCfg 1 (some 2) .release, KeyCollection.new toy 2 1 (some 2) Block.zero⟩ := by
  constructor
  · refine C68_server.2 ⟨⟨by decide, by decide, by decide⟩, "whh.toml", "0", "0.0.0.0:8000", toyFile, 0, by decide,
      by decide, toy_fileHas, toy_denotes.1, .inl ⟨rfl, rfl⟩, rfl, by decide, rfl⟩
  · refine C68_server.2 ⟨⟨by decide, by decide, by decide⟩, "whh.toml", "+01", "0.0.0.0:8001", toyFile, 1, by decide,
      by decide, toy_fileHas, toy_denotes.2.1, .inr ⟨rfl, rfl⟩, rfl, by decide, rfl⟩

/-- Ids other than 0 and 1 do not start a server. -/
example : ∀ r : Running toy,
    serverStart toy toyEnv false .release List.reverse List.reverse_perm [] (toyServerArgs "2") ≠ .ok r := by
  intro r h
  obtain ⟨-, f, v, a, c, id, -, h2, -, h3, h4, -⟩ := C68_server.1 h
  have : v = "2" := by
    have : Spec.given (toyServerArgs "2") .serverId = ["2"] := by decide
    rw [this] at h2; cases h2; rfl
  subst this
  have hp : parseI8 "2" = some 2 := by decide
  have := parseI8_eq_some.2 ⟨h3, by omega, by omega⟩
  rw [hp] at this
  cases this
  omega

/-- The overrides do nothing. -/
example (x y : String) :
    serverStart toy toyEnv false .debug List.reverse List.reverse_perm []
      (toyServerArgs "0" ++ [⟨.long "server-0", x⟩, ⟨.long "server-1", y⟩])
      = .ok ⟨"0.0.0.0:8000", toyCfg 0 (some 2) .debug, KeyCollection.new toy 2 0 (some 2) Block.zero⟩ :=
  C68_false_server_override toy_servers.1 (by decide) (by decide)

/-- Everything started as documented, with the draws of `toyDraw`. -/
example : ∃ out, driverStart toyEnv false .release
      [⟨"0.0.0.0:8000", toyCfg 0 (some 2) .debug, KeyCollection.new toy 2 0 (some 2) Block.zero⟩,
       ⟨"0.0.0.0:8001", toyCfg 1 (some 2) .release, KeyCollection.new toy 2 1 (some 2) Block.zero⟩]
      toyDraw toyDriverArgs = .ok (.whh out) ∧
    out.results.map (fun r => (r.path, r.value)) = [([true, false], [0, 2, 2])] := by
  have ht : scaledThreshold (.fin (2 / 3)) 3 = 2 := by decide +kernel
  obtain ⟨out, h1, h2⟩ := C68_heavy_hitters (P := toy) (env := toyEnv) (bld := .release) (n := 3) (d := 2)
    (draw := toyDraw) (t := .fin (2 / 3)) toy_fileHas toy_servers.1 (by decide) (by decide) toy_denotes.1 toy_servers.2
    (by decide) (by decide) toy_denotes.2.1 toy_accepted (by decide) (by decide) toy_denotes.2.2 (by decide)
    (by decide) (by decide) (by
      intro t h
      have : t = "0.3" := by
        have hg : Spec.given toyDriverArgs .malicious = ["0.3"] := by decide
        rw [hg] at h
        exact List.mem_singleton.1 h
      subst this
      exact ⟨3 / 10, rfl, by norm_num⟩) rfl rfl le_rfl ⟨_, rfl, by norm_num⟩ rfl
    ⟨by decide, by decide, by decide, by decide⟩ (by decide) toy_proves (fun _ _ => toy_flpComplete _ _)
    toy_bumpsRejected rfl (by decide) (.inl rfl)
  rw [ht] at h2
  exact ⟨out, h1, h2.trans (by decide +kernel)⟩

end Mastic
