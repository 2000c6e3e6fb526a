import Verif.Spec.Startup
import Verif.Lemmas.Exec
import Mathlib.Tactic.IntervalCases

namespace Mastic

/-! ## Numbers -/

theorem digitVal_eq_some {c : Char} {v : Nat} : digitVal c = some v ↔ v < 10 ∧ c = Char.ofNat (48 + v) := by
  unfold digitVal
  constructor
  · intro h
    split at h
    · rename_i hc
      cases h
      refine ⟨by omega, ?_⟩
      have : 48 + (c.toNat - 48) = c.toNat := by omega
      rw [this, Char.ofNat_toNat]
    · cases h
  · rintro ⟨hv, rfl⟩
    have : (Char.ofNat (48 + v)).toNat = 48 + v := by
      interval_cases v <;> rfl
    rw [this, if_pos (by omega)]
    simp

theorem foldDigits_eq_some {cs : List Char} {a v : Nat} :
    cs.foldlM (fun acc c => (digitVal c).map fun w => acc * 10 + w) a = some v ↔
      ∃ ds : List Nat, (∀ d ∈ ds, d < 10) ∧ cs = ds.map (fun d => Char.ofNat (48 + d)) ∧
        ds.foldl (fun acc d => acc * 10 + d) a = v := by
  induction cs generalizing a with
  | nil =>
    simp only [List.foldlM_nil]
    constructor
    · intro h; cases h; exact ⟨[], by simp, rfl, rfl⟩
    · rintro ⟨ds, -, h, e⟩
      have : ds = [] := by simpa using h.symm
      subst this
      exact congrArg some e
  | cons c cs ih =>
    rw [List.foldlM_cons]
    constructor
    · intro h
      obtain ⟨w, hw, h⟩ := Option.bind_eq_some_iff.1 h
      obtain ⟨u, hu, rfl⟩ := Option.map_eq_some_iff.1 hw
      obtain ⟨ds, h1, h2, h3⟩ := ih.1 h
      obtain ⟨hu1, hu2⟩ := digitVal_eq_some.1 hu
      refine ⟨u :: ds, by simpa using ⟨hu1, h1⟩, by simp [hu2, h2], by simpa using h3⟩
    · rintro ⟨ds, h1, h2, h3⟩
      cases ds with
      | nil => simp at h2
      | cons d ds =>
        simp only [List.map_cons, List.cons.injEq] at h2
        have hd := digitVal_eq_some.2 ⟨h1 d (by simp), h2.1⟩
        show (Option.bind _ _) = _
        rw [hd]
        simp only [Option.map_some, Option.bind_some]
        exact ih.2 ⟨ds, fun x hx => h1 x (by simp [hx]), h2.2, by simpa using h3⟩

theorem foldl_digits (ds : List Nat) (a : Nat) :
    ds.foldl (fun acc d => acc * 10 + d) a = a * 10 ^ ds.length + Nat.ofDigits 10 ds.reverse := by
  induction ds generalizing a with
  | nil => simp
  | cons d ds ih =>
    rw [List.foldl_cons, ih, List.reverse_cons, Nat.ofDigits_append]
    simp [Nat.ofDigits_singleton]
    ring

theorem parseDigits_eq_some {cs : List Char} {v : Nat} : parseDigits cs = some v ↔ Spec.Numeral cs v := by
  unfold parseDigits Spec.Numeral
  by_cases h : cs = []
  · subst h; simp
  · rw [if_neg (by simpa using h), foldDigits_eq_some]
    simp [foldl_digits, h]

theorem numeral_head {cs : List Char} {v : Nat} (h : Spec.Numeral cs v) :
    ∃ d rest, d < 10 ∧ cs = Char.ofNat (48 + d) :: rest := by
  obtain ⟨hne, ds, h1, rfl, -⟩ := h
  cases ds with
  | nil => simp at hne
  | cons d ds => exact ⟨d, _, h1 d (by simp), rfl⟩

theorem digit_not_sign {d : Nat} (h : d < 10) : Char.ofNat (48 + d) ≠ '+' ∧ Char.ofNat (48 + d) ≠ '-' := by
  interval_cases d <;> decide

theorem parseUsize_eq_some {s : String} {v : Nat} :
    parseUsize s = some v ↔ Spec.DenotesNat s v ∧ v < 2 ^ 64 := by
  unfold parseUsize Spec.DenotesNat
  rw [Option.filter_eq_some_iff, decide_eq_true_iff]
  refine and_congr ?_ Iff.rfl
  split
  · rename_i cs h
    rw [parseDigits_eq_some]
    constructor
    · intro hn; exact ⟨cs, hn, .inr h⟩
    · rintro ⟨cs', hn, e | e⟩
      · obtain ⟨d, rest, hd, e'⟩ := numeral_head hn
        rw [← e, h] at e'
        exact absurd (List.cons.inj e').1.symm (digit_not_sign hd).1
      · rw [h] at e; cases e; exact hn
  · rename_i h
    rw [parseDigits_eq_some]
    constructor
    · intro hn; exact ⟨_, hn, .inl rfl⟩
    · rintro ⟨cs', hn, e | e⟩
      · rw [e]; exact hn
      · exact absurd e (h cs')

theorem parseI8_eq_some {s : String} {v : Int} :
    parseI8 s = some v ↔ Spec.Denotes s v ∧ -128 ≤ v ∧ v ≤ 127 := by
  unfold parseI8 Spec.Denotes
  rw [Option.filter_eq_some_iff, decide_eq_true_iff]
  refine and_congr ?_ Iff.rfl
  split
  · rename_i cs h
    rw [Option.map_eq_some_iff]
    constructor
    · rintro ⟨n, hn, rfl⟩
      exact ⟨cs, n, parseDigits_eq_some.1 hn, .inl ⟨.inr h, rfl⟩⟩
    · rintro ⟨cs', n, hn, ⟨e | e, rfl⟩ | ⟨e, rfl⟩⟩
      · obtain ⟨d, rest, hd, e'⟩ := numeral_head hn
        rw [← e, h] at e'
        exact absurd (List.cons.inj e').1.symm (digit_not_sign hd).1
      · rw [h] at e; cases e; exact ⟨n, parseDigits_eq_some.2 hn, rfl⟩
      · rw [h] at e; simp at e
  · rename_i cs h
    rw [Option.map_eq_some_iff]
    constructor
    · rintro ⟨n, hn, rfl⟩
      exact ⟨cs, n, parseDigits_eq_some.1 hn, .inr ⟨h, rfl⟩⟩
    · rintro ⟨cs', n, hn, ⟨e | e, rfl⟩ | ⟨e, rfl⟩⟩
      · obtain ⟨d, rest, hd, e'⟩ := numeral_head hn
        rw [← e, h] at e'
        exact absurd (List.cons.inj e').1.symm (digit_not_sign hd).2
      · rw [h] at e; simp at e
      · rw [h] at e; cases e; exact ⟨n, parseDigits_eq_some.2 hn, rfl⟩
  · rename_i h1 h2
    rw [Option.map_eq_some_iff]
    constructor
    · rintro ⟨n, hn, rfl⟩
      exact ⟨_, n, parseDigits_eq_some.1 hn, .inl ⟨.inl rfl, rfl⟩⟩
    · rintro ⟨cs', n, hn, ⟨e | e, rfl⟩ | ⟨e, rfl⟩⟩
      · rw [e]; exact ⟨n, parseDigits_eq_some.2 hn, rfl⟩
      · exact absurd e (h1 cs')
      · exact absurd e (h2 cs')

/-! ## Options -/

theorem ok_bindS {α β : Type} (a : α) (f : α → Except StartErr β) : (Except.ok a >>= f) = f a := rfl

theorem error_bindS {α β : Type} (e : StartErr) (f : α → Except StartErr β) :
    ((Except.error e : Except StartErr α) >>= f) = .error e := rfl

theorem bindS_eq_ok {α β : Type} {x : Except StartErr α} {f : α → Except StartErr β} {b : β} :
    (x >>= f) = .ok b ↔ ∃ a, x = .ok a ∧ f a = .ok b := by
  cases x with
  | error e => simp [error_bindS]
  | ok a => simp [ok_bindS]

theorem needS_eq_ok {α : Type} {o : Option α} {a : α} : needS o = .ok a ↔ o = some a := by
  cases o <;> simp [needS]

theorem server_resolve (f : Flag) (a : ArgName) :
    resolve (argDefs true false false) f = some a ↔ a ∈ Spec.serverOpts ∧ f ∈ Spec.flags a := by
  have hs : shortOf "c" = some 'c' ∧ shortOf "s0" = some 's' ∧ shortOf "i" = some 'i' := by decide
  cases f with
  | short c =>
    simp only [resolve, argDefs, hs, List.find?_append, List.find?_cons, ArgDef.names]
    by_cases h1 : c = 'c'
    · subst h1; cases a <;> simp [Spec.serverOpts, Spec.flags]
    by_cases h2 : c = 's'
    · subst h2; cases a <;> simp [Spec.serverOpts, Spec.flags]
    by_cases h3 : c = 'i'
    · subst h3; cases a <;> simp [Spec.serverOpts, Spec.flags]
    cases a <;> simp [Spec.serverOpts, Spec.flags, beq_false_of_ne (Ne.symm h1), beq_false_of_ne (Ne.symm h2), beq_false_of_ne (Ne.symm h3), h1, h2, h3]
  | long s =>
    simp only [resolve, argDefs, hs, List.find?_append, List.find?_cons, ArgDef.names]
    by_cases h1 : s = "config"
    · subst h1; cases a <;> simp [Spec.serverOpts, Spec.flags]
    by_cases h2 : s = "server-0"
    · subst h2; cases a <;> simp [Spec.serverOpts, Spec.flags]
    by_cases h3 : s = "server-1"
    · subst h3; cases a <;> simp [Spec.serverOpts, Spec.flags]
    by_cases h4 : s = "server_id"
    · subst h4; cases a <;> simp [Spec.serverOpts, Spec.flags]
    cases a <;> simp [Spec.serverOpts, Spec.flags, beq_false_of_ne (Ne.symm h1), beq_false_of_ne (Ne.symm h2), beq_false_of_ne (Ne.symm h3), beq_false_of_ne (Ne.symm h4), h1, h2, h3, h4]

theorem driver_resolve (f : Flag) (a : ArgName) :
    resolve (argDefs false true true) f = some a ↔ a ∈ Spec.driverOpts ∧ f ∈ Spec.flags a := by
  have hs : shortOf "c" = some 'c' ∧ shortOf "s0" = some 's' ∧ shortOf "n" = some 'n' ∧
    shortOf "m" = some 'm' := by decide
  cases f with
  | short c =>
    simp only [resolve, argDefs, hs, List.find?_append, List.find?_cons, ArgDef.names]
    by_cases h1 : c = 'c'
    · subst h1; cases a <;> simp [Spec.driverOpts, Spec.flags]
    by_cases h2 : c = 's'
    · subst h2; cases a <;> simp [Spec.driverOpts, Spec.flags]
    by_cases h3 : c = 'n'
    · subst h3; cases a <;> simp [Spec.driverOpts, Spec.flags]
    by_cases h4 : c = 'm'
    · subst h4; cases a <;> simp [Spec.driverOpts, Spec.flags]
    cases a <;> simp [Spec.driverOpts, Spec.flags, beq_false_of_ne (Ne.symm h1), beq_false_of_ne (Ne.symm h2), beq_false_of_ne (Ne.symm h3), beq_false_of_ne (Ne.symm h4), h1, h2, h3, h4]
  | long s =>
    simp only [resolve, argDefs, hs, List.find?_append, List.find?_cons, ArgDef.names]
    by_cases h1 : s = "config"
    · subst h1; cases a <;> simp [Spec.driverOpts, Spec.flags]
    by_cases h2 : s = "server-0"
    · subst h2; cases a <;> simp [Spec.driverOpts, Spec.flags]
    by_cases h3 : s = "server-1"
    · subst h3; cases a <;> simp [Spec.driverOpts, Spec.flags]
    by_cases h4 : s = "num_clients"
    · subst h4; cases a <;> simp [Spec.driverOpts, Spec.flags]
    by_cases h5 : s = "malicious"
    · subst h5; cases a <;> simp [Spec.driverOpts, Spec.flags]
    cases a <;> simp [Spec.driverOpts, Spec.flags, beq_false_of_ne (Ne.symm h1), beq_false_of_ne (Ne.symm h2), beq_false_of_ne (Ne.symm h3), beq_false_of_ne (Ne.symm h4), beq_false_of_ne (Ne.symm h5),
      h1, h2, h3, h4, h5]

section
variable {defs : List ArgDef} {known : List ArgName}

theorem matchAll_ok_iff (hr : ∀ f a, resolve defs f = some a ↔ a ∈ known ∧ f ∈ Spec.flags a) (argv : List Occ) :
    (∃ ms, matchAll defs argv = .ok ms) ↔ ∀ o ∈ argv, ∃ a ∈ known, o.flag ∈ Spec.flags a := by
  induction argv with
  | nil => simp [matchAll]
  | cons o os ih =>
    rw [List.forall_mem_cons, ← ih]
    rw [matchAll]
    cases h : resolve defs o.flag with
    | none =>
      simp only [reduceCtorEq, exists_false, false_iff, not_and]
      rintro ⟨a, ha⟩
      rw [(hr _ _).2 ha] at h
      cases h
    | some a =>
      simp only [bindS_eq_ok, Except.ok.injEq]
      constructor
      · rintro ⟨_, ms, h', -⟩; exact ⟨⟨a, (hr _ _).1 h⟩, ms, h'⟩
      · rintro ⟨-, ms, h'⟩; exact ⟨_, ms, h', rfl⟩

theorem matchAll_values (hr : ∀ f a, resolve defs f = some a ↔ a ∈ known ∧ f ∈ Spec.flags a) {argv : List Occ}
    {ms : List (ArgName × String)} (h : matchAll defs argv = .ok ms) (a : ArgName) :
    (ms.filter fun m => decide (m.1 = a)).map Prod.snd = if a ∈ known then Spec.given argv a else [] := by
  induction argv generalizing ms with
  | nil => cases h; simp [Spec.given]
  | cons o os ih =>
    unfold matchAll at h
    cases ho : resolve defs o.flag with
    | none => rw [ho] at h; cases h
    | some b =>
      rw [ho] at h
      obtain ⟨ms', h', e⟩ := bindS_eq_ok.1 h
      cases e
      have := ih h'
      obtain ⟨hb1, hb2⟩ := (hr _ _).1 ho
      by_cases hab : b = a
      · subst hab
        rw [if_pos hb1] at this ⊢
        simp only [Spec.given, decide_true, List.filter_cons_of_pos, List.map_cons, hb2, this]
      · have hnot : a ∈ known → o.flag ∉ Spec.flags a := by
          intro hk hm
          have := (hr _ _).2 ⟨hk, hm⟩
          rw [ho] at this; cases this; exact hab rfl
        rw [List.filter_cons_of_neg (by simpa using hab), this]
        by_cases hk : a ∈ known
        · rw [if_pos hk, if_pos hk]
          unfold Spec.given
          rw [List.filter_cons_of_neg (by simpa using hnot hk)]
        · rw [if_neg hk, if_neg hk]

theorem valueOf_eq_head (ms : List (ArgName × String)) (a : ArgName) :
    valueOf ms a = ((ms.filter fun m => decide (m.1 = a)).map Prod.snd).head? := by
  unfold valueOf
  rw [List.head?_map, List.head?_filter]

theorem nodup_iff_filter_le {α : Type} [DecidableEq α] {β : Type} (ms : List (α × β)) :
    (ms.map Prod.fst).Nodup ↔ ∀ a, ((ms.filter fun m => decide (m.1 = a)).map Prod.snd).length ≤ 1 := by
  rw [List.nodup_iff_count_le_one]
  refine forall_congr' fun a => ?_
  rw [List.length_map, ← List.countP_eq_length_filter, List.count, List.countP_map]
  have : (fun x => x == a) ∘ Prod.fst = fun m : α × β => decide (m.1 = a) := by
    funext m; exact beq_eq_decide _ _
  rw [this]

theorem mem_fst_iff {α : Type} [DecidableEq α] {β : Type} (ms : List (α × β)) (a : α) :
    a ∈ ms.map Prod.fst ↔ (ms.filter fun m => decide (m.1 = a)).map Prod.snd ≠ [] := by
  simp only [ne_eq, List.map_eq_nil_iff, List.filter_eq_nil_iff, decide_eq_true_eq, not_forall, not_not, List.mem_map]
  constructor
  · rintro ⟨m, hm, e⟩; exact ⟨m, hm, e⟩
  · rintro ⟨m, hm, e⟩; exact ⟨m, hm, e⟩

/-- The matches of a command line. -/
theorem getMatches_ok_iff {required : List ArgName}
    (hr : ∀ f a, resolve defs f = some a ↔ a ∈ known ∧ f ∈ Spec.flags a)
    (hreq : ∀ a, a ∈ required ↔ ∃ d ∈ defs, d.name = a ∧ d.required = true) (hsub : ∀ a ∈ required, a ∈ known)
    (argv : List Occ) :
    (∃ ms, getMatches false defs argv = .ok ms) ↔ Spec.Accepted known required argv := by
  constructor
  · rintro ⟨ms, h⟩
    unfold getMatches at h
    rw [if_neg (by simp)] at h
    obtain ⟨ms', hm, h⟩ := bindS_eq_ok.1 h
    split at h
    · cases h
    rename_i h1
    split at h
    · cases h
    rename_i h2
    cases h
    simp only [Bool.not_eq_true', decide_eq_false_iff_not, not_not] at h1
    refine ⟨(matchAll_ok_iff hr _).1 ⟨_, hm⟩, fun a ha => ?_, fun a ha => ?_⟩
    · have := (nodup_iff_filter_le _).1 h1 a
      rwa [matchAll_values hr hm, if_pos ha] at this
    · obtain ⟨d, hd, rfl, hdr⟩ := (hreq a).1 ha
      simp only [Bool.not_eq_true', Bool.not_eq_false, List.all_eq_true] at h2
      have := h2 d hd
      rw [hdr] at this
      simp only [Bool.not_true, Bool.false_or, decide_eq_true_iff] at this
      rw [mem_fst_iff, matchAll_values hr hm, if_pos (hsub _ ha)] at this
      exact this
  · rintro ⟨h1, h2, h3⟩
    obtain ⟨ms, hm⟩ := (matchAll_ok_iff hr _).2 h1
    refine ⟨ms, ?_⟩
    unfold getMatches
    rw [if_neg (by simp), hm, ok_bindS, if_neg, if_neg]
    · simp only [Bool.not_eq_true', Bool.not_eq_false, List.all_eq_true]
      intro d hd
      cases hdr : d.required with
      | false => rfl
      | true =>
        simp only [Bool.not_true, Bool.false_or, decide_eq_true_iff]
        have hq := (hreq d.name).2 ⟨d, hd, rfl, hdr⟩
        rw [mem_fst_iff, matchAll_values hr hm, if_pos (hsub _ hq)]
        exact h3 _ hq
    · simp only [Bool.not_eq_true', decide_eq_false_iff_not, not_not]
      rw [nodup_iff_filter_le]
      intro a
      rw [matchAll_values hr hm]
      split
      · exact h2 a ‹_›
      · simp

theorem getMatches_value
    (hr : ∀ f a, resolve defs f = some a ↔ a ∈ known ∧ f ∈ Spec.flags a)
    {argv : List Occ} {ms : List (ArgName × String)} (h : getMatches false defs argv = .ok ms) (a : ArgName) :
    valueOf ms a = if a ∈ known then (Spec.given argv a).head? else none := by
  unfold getMatches at h
  rw [if_neg (by simp)] at h
  obtain ⟨ms', hm, h⟩ := bindS_eq_ok.1 h
  split at h
  · cases h
  split at h
  · cases h
  cases h
  rw [valueOf_eq_head, matchAll_values hr hm]
  split <;> rfl

end

theorem getConfig_eq_ok {env : Env} {file : String} {c : FileConfig} :
    getConfig env file = .ok c ↔ Spec.FileHas env file c := by
  unfold getConfig Spec.FileHas
  simp only [bindS_eq_ok, needS_eq_ok]

theorem serverReq (a : ArgName) : a ∈ [ArgName.config, ArgName.serverId] ↔
    ∃ d ∈ argDefs true false false, d.name = a ∧ d.required = true := by
  cases a <;> simp [argDefs]

theorem driverReq (a : ArgName) : a ∈ [ArgName.config, ArgName.numClients] ↔
    ∃ d ∈ argDefs false true true, d.name = a ∧ d.required = true := by
  cases a <;> simp [argDefs]

theorem getArgs_server {env : Env} {argv : List Occ} {args : Args} :
    getArgs env false true false false argv = .ok args ↔
      Spec.Accepted Spec.serverOpts [.config, .serverId] argv ∧ ∃ file v, (Spec.given argv .config).head? = some file ∧
        (Spec.given argv .serverId).head? = some v ∧ Spec.FileHas env file args.config ∧
        Spec.Denotes v args.serverId ∧ -128 ≤ args.serverId ∧ args.serverId ≤ 127 ∧
        args.numClients = 0 ∧ args.malicious = .fin 0 := by
  have hacc := getMatches_ok_iff server_resolve serverReq (by decide) argv
  constructor
  · intro h
    unfold getArgs at h
    obtain ⟨ms, hm, h⟩ := bindS_eq_ok.1 h
    have hv := getMatches_value server_resolve hm
    obtain ⟨file, hf, h⟩ := bindS_eq_ok.1 h
    obtain ⟨c, hc, h⟩ := bindS_eq_ok.1 h
    simp only [if_true, Bool.false_eq_true, if_false, hv .malicious, ok_bindS] at h
    obtain ⟨v, hv', h⟩ := bindS_eq_ok.1 h
    obtain ⟨id, hid, h⟩ := bindS_eq_ok.1 h
    rw [needS_eq_ok] at hf hv' hid
    rw [hv] at hf hv'
    have h' : args = ⟨c, id, 0, .fin 0⟩ := by
      simpa [Spec.serverOpts, ok_bindS, eq_comm] using h
    subst h'
    refine ⟨hacc.1 ⟨ms, hm⟩, file, v, by simpa [Spec.serverOpts] using hf, by simpa [Spec.serverOpts] using hv',
      getConfig_eq_ok.1 hc, ?_⟩
    obtain ⟨a, b⟩ := parseI8_eq_some.1 hid
    exact ⟨a, b.1, b.2, rfl, rfl⟩
  · rintro ⟨ha, file, v, hf, hv', hc, hd, hr1, hr2, hn, hm'⟩
    obtain ⟨ms, hm⟩ := hacc.2 ha
    have hv := getMatches_value server_resolve hm
    unfold getArgs
    rw [hm, ok_bindS, hv .config, if_pos (by decide), needS_eq_ok.2 hf, ok_bindS, getConfig_eq_ok.2 hc, ok_bindS]
    simp only [if_true, Bool.false_eq_true, if_false]
    rw [hv .serverId, if_pos (by decide), needS_eq_ok.2 hv', ok_bindS,
      needS_eq_ok.2 (parseI8_eq_some.2 ⟨hd, hr1, hr2⟩), ok_bindS, ok_bindS, hv .malicious, if_neg (by decide)]
    simp only [ok_bindS, Except.ok.injEq]
    cases args
    simp_all

theorem getArgs_driver {env : Env} {argv : List Occ} {args : Args} :
    getArgs env false false true true argv = .ok args ↔
      Spec.Accepted Spec.driverOpts [.config, .numClients] argv ∧ ∃ file c v,
        (Spec.given argv .config).head? = some file ∧
        (Spec.given argv .numClients).head? = some v ∧ Spec.FileHas env file c ∧
        args.config = { c with
          server0 := ((Spec.given argv .server0).head?).getD c.server0
          server1 := ((Spec.given argv .server1).head?).getD c.server1 } ∧
        Spec.DenotesNat v args.numClients ∧ args.numClients < 2 ^ 64 ∧ args.serverId = -1 ∧
        (match (Spec.given argv .malicious).head? with
          | some m => env.parseF32 m = some args.malicious
          | none => args.malicious = .fin 0) := by
  have hacc := getMatches_ok_iff driver_resolve driverReq (by decide) argv
  constructor
  · intro h
    unfold getArgs at h
    obtain ⟨ms, hm, h⟩ := bindS_eq_ok.1 h
    have hv := getMatches_value driver_resolve hm
    obtain ⟨file, hf, h⟩ := bindS_eq_ok.1 h
    obtain ⟨c, hc, h⟩ := bindS_eq_ok.1 h
    simp only [if_true, Bool.false_eq_true, if_false, ok_bindS] at h
    obtain ⟨v, hv', h⟩ := bindS_eq_ok.1 h
    obtain ⟨n, hn, h⟩ := bindS_eq_ok.1 h
    rw [needS_eq_ok] at hf hv' hn
    rw [hv] at hf hv'
    obtain ⟨a, b⟩ := parseUsize_eq_some.1 hn
    refine ⟨hacc.1 ⟨ms, hm⟩, file, c, v, by simpa [Spec.driverOpts] using hf, by simpa [Spec.driverOpts] using hv',
      getConfig_eq_ok.1 hc, ?_⟩
    rw [hv .malicious, if_pos (by decide), hv .server0, if_pos (by decide), hv .server1, if_pos (by decide)] at h
    split at h
    · rename_i e
      obtain ⟨m, hmal, h⟩ := bindS_eq_ok.1 h
      cases h
      exact ⟨rfl, a, b, rfl, by rw [e]; exact needS_eq_ok.1 hmal⟩
    · rename_i e
      cases h
      exact ⟨rfl, a, b, rfl, by rw [e]⟩
  · rintro ⟨ha, file, c, v, hf, hv', hc, hcfg, hd, hr, hid, hmal⟩
    obtain ⟨ms, hm⟩ := hacc.2 ha
    have hv := getMatches_value driver_resolve hm
    unfold getArgs
    rw [hm, ok_bindS, hv .config, if_pos (by decide), needS_eq_ok.2 hf, ok_bindS, getConfig_eq_ok.2 hc, ok_bindS]
    simp only [if_true, Bool.false_eq_true, if_false, ok_bindS]
    rw [hv .numClients, if_pos (by decide), needS_eq_ok.2 hv', ok_bindS,
      needS_eq_ok.2 (parseUsize_eq_some.2 ⟨hd, hr⟩), ok_bindS, hv .malicious, if_pos (by decide),
      hv .server0, if_pos (by decide), hv .server1, if_pos (by decide)]
    split at hmal
    · rename_i e
      rw [e]
      simp only [needS_eq_ok.2 hmal, ok_bindS, Except.ok.injEq]
      cases args
      simp_all
    · rename_i e
      rw [e]
      simp only [Except.ok.injEq]
      cases args
      simp_all

end Mastic
