import Verif.Spec.Repeat
import Verif.Lemmas.Pm
import Verif.Lemmas.Abm
import Verif.Lemmas.Search
import Verif.Lemmas.Flp
import Verif.Lemmas.Face

/-!
# Requests that arrive twice
-/

namespace Mastic

variable {P : Prims} {cfg : ServerCfg} {kc kc' : KeyCollection P}

theorem handle_served {req : Req} {r : Resp} {s : Server P} :
    Server.handle cfg (.running kc) req = (s, .ok r) ↔
      preLock cfg req = .ok () ∧ ∃ kc', s = .running kc' ∧ locked cfg kc req = .ok (kc', r) := by
  unfold Server.handle
  cases h1 : preLock cfg req with
  | error p => simp
  | ok u =>
    dsimp only
    cases h2 : locked cfg kc req with
    | error p => simp
    | ok x =>
      obtain ⟨k, y⟩ := x
      constructor
      · intro h
        cases h
        exact ⟨rfl, k, rfl, rfl⟩
      · rintro ⟨-, k', rfl, h⟩
        cases h
        rfl

theorem mapInsert_self {α : Type} {m : List (Nat × α)} {k : Nat} {v : α} (h : m.lookup k = some v) :
    mapInsert m k v = m := by
  induction m with
  | nil => cases h
  | cons e m ih =>
    obtain ⟨k1, v1⟩ := e
    rw [lookup_cons_ite] at h
    simp only [mapInsert]
    by_cases hk : k1 = k
    · subst hk
      simp only [if_true, Option.some.injEq] at h
      rw [if_pos rfl, h]
    · rw [if_neg fun e => hk e.symm] at h
      rw [if_neg hk, ih h]

theorem foldl_mapInsert_self {α β : Type} (f : β → Nat × α) : ∀ (rs : List β) (m : List (Nat × α)),
    (∀ r ∈ rs, m.lookup (f r).1 = some (f r).2) → rs.foldl (fun m r => mapInsert m (f r).1 (f r).2) m = m
  | [], _, _ => rfl
  | r :: rs, m, h => by
    rw [List.foldl_cons, mapInsert_self (h r (by simp))]
    exact foldl_mapInsert_self f rs m fun x hx => h x (by simp [hx])

/-- Storing the same entries a second time. -/
theorem foldl_mapInsert_twice {α β : Type} (f : β → Nat × α) (rs : List β) (m : List (Nat × α))
    (hn : (rs.map fun r => (f r).1).Nodup) :
    rs.foldl (fun m r => mapInsert m (f r).1 (f r).2) (rs.foldl (fun m r => mapInsert m (f r).1 (f r).2) m)
      = rs.foldl (fun m r => mapInsert m (f r).1 (f r).2) m := by
  refine foldl_mapInsert_self f rs _ fun r hr => ?_
  rw [foldl_mapInsert_lookup f rs m _ hn]
  cases hf : rs.find? (fun x => (f x).1 == (f r).1) with
  | none =>
    rw [List.find?_eq_none] at hf
    exact absurd (by simp) (hf r hr)
  | some x =>
    have hx := List.find?_some hf
    have hm := List.mem_of_find?_eq_some hf
    have : x = r := List.inj_on_of_nodup_map hn hm hr (by simpa using hx)
    rw [this]

theorem excludeAll_range {reports l : List (Bool × ReportShare)} {ms : List Nat} (h : excludeAll reports ms = .ok l) :
    ∀ i ∈ ms, i < reports.length := by
  induction ms generalizing reports with
  | nil => simp
  | cons m ms ih =>
    unfold excludeAll at h ih
    rw [foldE_cons] at h
    obtain ⟨s, h1, h2⟩ := bind_eq_ok.1 h
    obtain ⟨r, hr, h1⟩ := bind_eq_ok.1 h1
    cases h1
    have hl := (List.getElem?_eq_some_iff.1 (idx_eq_ok.1 hr)).1
    intro i hi
    rcases List.mem_cons.1 hi with rfl | hi
    · exact hl
    · simpa using ih h2 i hi

theorem excludeAll_twice {reports l : List (Bool × ReportShare)} {ms : List Nat} (h : excludeAll reports ms = .ok l) :
    excludeAll l ms = .ok l := by
  have hr := excludeAll_range h
  rw [excludeAll_eq ms _ hr] at h
  cases h
  rw [excludeAll_eq ms _ (by simpa [Spec.dropClients] using hr)]
  congr 1
  unfold Spec.dropClients
  refine List.ext_getElem? fun i => ?_
  simp only [List.getElem?_mapIdx, Option.map_map]
  cases reports[i]? with
  | none => rfl
  | some x =>
    simp only [Option.map_some, Function.comp_apply, Option.some.injEq, Prod.mk.injEq, and_true]
    cases x.1 <;> simp

theorem masked_twice : ∀ (reports : List (Bool × ReportShare)) (keep : List Bool),
    Spec.masked (Spec.masked reports keep) keep = Spec.masked reports keep
  | [], keep => by simp [Spec.masked]
  | _ :: _, [] => by simp [Spec.masked]
  | r :: rs, k :: ks => by
    have := masked_twice rs ks
    unfold Spec.masked at this ⊢
    rw [List.zipWith_cons_cons, List.zipWith_cons_cons, this]
    cases r.1 <;> cases k <;> rfl

theorem crawlPrep_twice {malicious : List Nat} {isLast : Bool} {k1 : KeyCollection P} (hm : malicious ≠ [])
    (h : kc.crawlPrep malicious isLast = .ok k1) (fr : List TreeNode) :
    ({ k1 with prevFrontier := k1.frontier, frontier := fr } : KeyCollection P).crawlPrep malicious isLast = .ok k1 := by
  unfold KeyCollection.crawlPrep at h ⊢
  have he : malicious.isEmpty = false := by cases malicious <;> simp_all
  rw [he] at h ⊢
  simp only [Bool.false_eq_true, if_false] at h ⊢
  obtain ⟨reports, h1, h⟩ := bind_eq_ok.1 h
  cases h
  cases isLast with
  | false =>
    cases h1
    simp
  | true =>
    simp only [if_true] at h1 ⊢
    rw [excludeAll_twice h1]
    rfl

theorem nextFrontier_first {chk : Bool} {next : List TreeNode} (h : kc.nextFrontier chk = .ok next) :
    (kc.frontier = [] ∧ next = []) ∨ ∃ a b, kc.frontier[0]? = some a ∧ next[0]? = some b ∧
      b.path.length = a.path.length + 1 := by
  unfold KeyCollection.nextFrontier at h
  obtain ⟨cs, hc, h⟩ := bind_eq_ok.1 h
  cases h
  cases hf : kc.frontier with
  | nil => rw [hf] at hc; cases hc; exact .inl ⟨rfl, rfl⟩
  | cons a fr =>
    rw [hf, mapE_cons] at hc
    obtain ⟨b, hb, hc⟩ := bind_eq_ok.1 hc
    obtain ⟨bs, -, hc⟩ := bind_eq_ok.1 hc
    cases hc
    refine .inr ⟨a, ?_⟩
    unfold KeyCollection.children at hb
    have hb : ∃ c0 c1, kc.makeTreeNode a false = .ok c0 ∧ b = [c0, c1] := by
      cases chk with
      | false =>
        obtain ⟨c0, h0, hb⟩ := bind_eq_ok.1 hb
        obtain ⟨c1, -, hb⟩ := bind_eq_ok.1 hb
        cases hb
        exact ⟨c0, c1, h0, rfl⟩
      | true =>
        obtain ⟨_, -, hb⟩ := bind_eq_ok.1 hb
        obtain ⟨_, -, hb⟩ := bind_eq_ok.1 hb
        obtain ⟨c0, h0, hb⟩ := bind_eq_ok.1 hb
        obtain ⟨c1, -, hb⟩ := bind_eq_ok.1 hb
        cases hb
        exact ⟨c0, c1, h0, rfl⟩
    obtain ⟨c0, c1, h0, rfl⟩ := hb
    unfold KeyCollection.makeTreeNode at h0
    obtain ⟨evs, -, h0⟩ := bind_eq_ok.1 h0
    cases h0
    exact ⟨_, rfl, rfl, by simp⟩

/-- The keys of the two maps are distinct. -/
def Distinct (kc : KeyCollection P) : Prop := Spec.DistinctKeys kc.abmState ∧ Spec.DistinctKeys kc.pmState

theorem locked_distinct {req : Req} {r : Resp} (hd : Distinct kc) (h : locked cfg kc req = .ok (kc', r)) :
    Distinct kc' := by
  obtain ⟨ha, hp⟩ := hd
  cases req with
  | reset vk b =>
    obtain ⟨k, h1, h⟩ := bind_eq_ok.1 h
    cases h
    unfold srvReset at h1
    split at h1
    · cases h1
      exact ⟨List.nodup_nil, List.nodup_nil⟩
    · cases h1
  | addReportShares rs =>
    cases h
    unfold srvAddReportShares
    have : ∀ (l : List ReportShare) (k : KeyCollection P), (l.foldl KeyCollection.addReportShare k).abmState = k.abmState ∧
        (l.foldl KeyCollection.addReportShare k).pmState = k.pmState := by
      intro l
      induction l with
      | nil => intro k; exact ⟨rfl, rfl⟩
      | cons a l ih => intro k; rw [List.foldl_cons]; exact ih _
    unfold Distinct
    rw [(this rs kc).1, (this rs kc).2]
    exact ⟨ha, hp⟩
  | treeInit =>
    obtain ⟨k, h1, h⟩ := bind_eq_ok.1 h
    cases h
    unfold KeyCollection.treeInit at h1
    obtain ⟨keys, -, h1⟩ := bind_eq_ok.1 h1
    cases h1
    exact ⟨ha, hp⟩
  | treeCrawl s m l =>
    obtain ⟨⟨k, r'⟩, h1, h⟩ := bind_eq_ok.1 h
    cases h
    unfold KeyCollection.treeCrawl at h1
    obtain ⟨k1, h2, h1⟩ := bind_eq_ok.1 h1
    obtain ⟨⟨next, combined⟩, -, h1⟩ := bind_eq_ok.1 h1
    obtain ⟨rs, -, h1⟩ := bind_eq_ok.1 h1
    cases h1
    unfold KeyCollection.crawlPrep at h2
    split at h2
    · cases h2; exact ⟨ha, hp⟩
    · obtain ⟨reports, -, h2⟩ := bind_eq_ok.1 h2
      cases h2
      exact ⟨ha, hp⟩
  | runFlpQueries s e =>
    obtain ⟨-, -, h⟩ := bind_eq_ok.1 h
    obtain ⟨_, -, h⟩ := bind_eq_ok.1 h
    cases h
    exact ⟨ha, hp⟩
  | applyFlpResults keep =>
    obtain ⟨k, h1, h⟩ := bind_eq_ok.1 h
    cases h
    obtain ⟨reports, rfl, -⟩ := applyFlpResults_ok h1
    exact ⟨ha, hp⟩
  | treeCrawlLast =>
    obtain ⟨⟨k, r'⟩, h1, h⟩ := bind_eq_ok.1 h
    cases h
    unfold KeyCollection.treeCrawlLast at h1
    obtain ⟨next, -, h1⟩ := bind_eq_ok.1 h1
    obtain ⟨proofs, -, h1⟩ := bind_eq_ok.1 h1
    cases h1
    exact ⟨ha, hp⟩
  | getProofs s e =>
    obtain ⟨-, -, h⟩ := bind_eq_ok.1 h
    cases h
    exact ⟨ha, hp⟩
  | treePrune keep =>
    obtain ⟨k, h1, h⟩ := bind_eq_ok.1 h
    cases h
    rw [treePrune_spec] at h1
    split at h1
    · cases h1; exact ⟨ha, hp⟩
    · cases h1
  | finalShares => cases h; exact ⟨ha, hp⟩
  | abmValidate a s e =>
    obtain ⟨⟨k, r'⟩, h1, h⟩ := bind_eq_ok.1 h
    cases h
    obtain ⟨results, -, -, -, rfl, -⟩ := srvAbmValidate_ok h1
    exact ⟨foldl_mapInsert_distinct (fun r : Nat × List (List Field128) × List Field128 × Vector Byte 32 => (r.1, r.2.1)) _ _
      ha, hp⟩
  | abmResult rej n s e =>
    obtain ⟨⟨k, r'⟩, h1, h⟩ := bind_eq_ok.1 h
    cases h
    obtain ⟨h2, h3, -⟩ := srvAbmResult_spec ha h1
    refine ⟨?_, by rw [h2]; exact hp⟩
    rw [h3]
    split
    · exact distinct_filter ha _
    · exact ha
  | pmValidate s e =>
    obtain ⟨⟨k, r'⟩, h1, h⟩ := bind_eq_ok.1 h
    cases h
    unfold srvPmValidate at h1
    obtain ⟨-, -, h1⟩ := bind_eq_ok.1 h1
    obtain ⟨aggId, -, h1⟩ := bind_eq_ok.1 h1
    split at h1
    · cases h1
    · obtain ⟨results, -, h1⟩ := bind_eq_ok.1 h1
      cases h1
      exact ⟨ha, foldl_mapInsert_distinct (fun r : Nat × P.PrepState × P.PrepShare => r) _ _ hp⟩
  | pmResult peers s e =>
    obtain ⟨⟨k, a, n⟩, h1, h⟩ := bind_eq_ok.1 h
    cases h
    unfold srvPmResult at h1
    split at h1
    · cases h1
    · obtain ⟨⟨m, outs⟩, h2, h1⟩ := bind_eq_ok.1 h1
      obtain ⟨_, -, h1⟩ := bind_eq_ok.1 h1
      obtain ⟨_, -, h1⟩ := bind_eq_ok.1 h1
      cases h1
      obtain ⟨-, -, rfl, -⟩ := pmResultLoop_consumes _ hp h2
      exact ⟨ha, distinct_filter hp _⟩

theorem run_poisoned (l : List Req) : (Server.run cfg (.poisoned : Server P) l).1 = .poisoned := by
  induction l with
  | nil => rfl
  | cons a l ih =>
    show (Server.run cfg (Server.handle cfg (.poisoned : Server P) a).1 l).1 = _
    have : (Server.handle cfg (.poisoned : Server P) a).1 = .poisoned := by
      unfold Server.handle
      cases preLock cfg a <;> rfl
    rw [this, ih]

theorem run_distinct : ∀ (reqs : List Req) {kc kc' : KeyCollection P}, Distinct kc →
    (Server.run cfg (.running kc) reqs).1 = .running kc' → Distinct kc'
  | [], kc, kc', h, e => by cases e; exact h
  | r :: rs, kc, kc', h, e => by
    have e : (Server.run cfg (Server.handle cfg (.running kc) r).1 rs).1 = .running kc' := e
    unfold Server.handle at e
    cases h1 : preLock cfg r with
    | error p => rw [h1] at e; exact run_distinct rs h e
    | ok u =>
      rw [h1] at e
      dsimp only at e
      cases h2 : locked cfg kc r with
      | error p =>
        rw [h2] at e
        exfalso
        rw [run_poisoned] at e
        cases e
      | ok x =>
        rw [h2] at e
        exact run_distinct rs (locked_distinct h h2) e

theorem reachable_distinct {buckets : Nat} (h : Spec.Reachable P cfg buckets kc) : Distinct kc := by
  obtain ⟨reqs, h⟩ := h
  refine run_distinct reqs (kc := KeyCollection.new P buckets cfg.serverId cfg.dataBits Block.zero) ?_ h
  exact ⟨List.nodup_nil, List.nodup_nil⟩

theorem select_full : ∀ (keep : List Bool) (l : List TreeNode), keep.length = l.length →
    ((Spec.select keep l).length = keep.length ↔ false ∉ keep) ∧ (false ∉ keep → Spec.select keep l = l) := by
  intro keep
  induction keep with
  | nil => intro l hl; cases l <;> simp_all [Spec.select]
  | cons b keep ih =>
    intro l hl
    cases l with
    | nil => simp at hl
    | cons x l =>
      obtain ⟨i1, i2⟩ := ih l (by simpa using hl)
      cases b with
      | true =>
        have : Spec.select (true :: keep) (x :: l) = x :: Spec.select keep l := by simp [Spec.select]
        rw [this]
        simp only [List.length_cons, Nat.add_right_cancel_iff, List.mem_cons, Bool.false_eq_true, false_or,
          List.cons.injEq, true_and]
        exact ⟨i1, i2⟩
      | false =>
        have : Spec.select (false :: keep) (x :: l) = Spec.select keep l := by simp [Spec.select]
        rw [this]
        refine ⟨⟨fun e => ?_, fun e => absurd (by simp) e⟩, fun e => absurd (by simp) e⟩
        have hle : (Spec.select keep l).length ≤ keep.length := by
          refine (List.length_filterMap_le _ _).trans ?_
          simp
        simp at e
        omega

/-- What takes something out of the state cannot be answered twice. -/
theorem repeats_of_ok {req : Req} {r : Resp} {x : KeyCollection P × Resp} (hd : Distinct kc) (ht : Spec.takesOut req = true)
    (hl : locked cfg kc req = .ok (kc', r)) (hl' : locked cfg kc' req = .ok x) :
    Spec.Repeats cfg.build kc.frontier req := by
  obtain ⟨ha, hp⟩ := hd
  cases req with
  | treePrune keep =>
    obtain ⟨k, h1, h⟩ := bind_eq_ok.1 hl
    cases h
    rw [treePrune_spec] at h1
    split at h1
    swap
    · cases h1
    rename_i hlen
    cases h1
    obtain ⟨k, g1, -⟩ := bind_eq_ok.1 hl'
    rw [treePrune_spec] at g1
    split at g1
    · rename_i hlen'
      exact (select_full keep kc.frontier hlen).1.1 hlen'.symm
    · cases g1
  | abmResult rej n s e =>
    obtain ⟨⟨k, rows⟩, h1, h⟩ := bind_eq_ok.1 hl
    cases h
    obtain ⟨-, h3, -⟩ := srvAbmResult_spec ha h1
    obtain ⟨⟨k, rows'⟩, g1, -⟩ := bind_eq_ok.1 hl'
    cases hb : cfg.build with
    | release => exact .inl rfl
    | debug =>
      refine .inr ?_
      rw [if_pos hb] at h3
      have hd' : Spec.DistinctKeys kc'.abmState := by rw [h3]; exact distinct_filter ha _
      have := ((srvAbmResult_returns hd').1 ⟨_, g1⟩ hb).2
      by_contra hne
      obtain ⟨x, xs, rfl⟩ := List.exists_cons_of_ne_nil hne
      have hx := this x (by simp)
      rw [h3] at hx
      obtain ⟨y, hy, rfl⟩ := List.mem_map.1 hx
      simpa using (List.mem_filter.1 hy).2
  | pmResult peers s e =>
    obtain ⟨⟨k, agg, n⟩, h1, h⟩ := bind_eq_ok.1 hl
    cases h
    unfold srvPmResult at h1
    split at h1
    · cases h1
    obtain ⟨⟨m, outs⟩, h2, h1⟩ := bind_eq_ok.1 h1
    obtain ⟨rejected, h3, h1⟩ := bind_eq_ok.1 h1
    obtain ⟨agg', h4, h1⟩ := bind_eq_ok.1 h1
    cases h1
    obtain ⟨-, -, rfl, -⟩ := pmResultLoop_consumes _ hp h2
    obtain ⟨⟨k, agg2, n2⟩, g1, -⟩ := bind_eq_ok.1 hl'
    unfold srvPmResult at g1
    split at g1
    · cases g1
    obtain ⟨⟨m2, outs2⟩, g2, -⟩ := bind_eq_ok.1 g1
    obtain ⟨-, g3, -⟩ := pmResultLoop_consumes _ (distinct_filter hp _) g2
    by_contra hc
    have hc : ¬ (e ≤ s ∨ peers = []) := hc
    push Not at hc
    obtain ⟨hlt, hne⟩ := hc
    obtain ⟨q, qs, rfl⟩ := List.exists_cons_of_ne_nil hne
    have hz : s ∈ ((rangeFrom s e).zip (q :: qs)).map Prod.fst := by
      have : rangeFrom s e = s :: List.range' (s + 1) (e - s - 1) := by
        unfold rangeFrom
        obtain ⟨k, hk⟩ : ∃ k, e - s = k + 1 := ⟨e - s - 1, by omega⟩
        rw [hk, List.range'_succ]
        simp
      rw [this]
      simp
    obtain ⟨y, hy, hys⟩ := List.mem_map.1 (g3 s hz)
    have := (List.mem_filter.1 hy).2
    rw [hys] at this
    simp [hz] at this
  | _ => cases ht

theorem crawl_paths {s : Nat} {l : Bool} {r : Resp} (h : locked cfg kc (.treeCrawl s [] l) = .ok (kc', r)) :
    kc'.frontier.map TreeNode.path = (kc.frontier.map TreeNode.path).flatMap fun q => [q ++ [false], q ++ [true]] := by
  obtain ⟨⟨k, r'⟩, h1, h⟩ := bind_eq_ok.1 h
  cases h
  unfold KeyCollection.treeCrawl at h1
  obtain ⟨k1, h2, h1⟩ := bind_eq_ok.1 h1
  cases h2
  obtain ⟨⟨next, combined⟩, h3, h1⟩ := bind_eq_ok.1 h1
  obtain ⟨rs, h4, h1⟩ := bind_eq_ok.1 h1
  cases h1
  unfold KeyCollection.crawlLevel at h3
  obtain ⟨root, -, h3⟩ := bind_eq_ok.1 h3
  obtain ⟨-, -, h3⟩ := bind_eq_ok.1 h3
  obtain ⟨nx, hnx, h3⟩ := bind_eq_ok.1 h3
  obtain ⟨_, -, h3⟩ := bind_eq_ok.1 h3
  obtain ⟨_, -, h3⟩ := bind_eq_ok.1 h3
  cases h3
  exact nextFrontier_paths hnx

end Mastic
