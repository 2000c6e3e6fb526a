import Verif.Spec.Search
import Verif.Lemmas.Engine
import Verif.Lemmas.Merkle
import Verif.Lemmas.Sim
import Mathlib.Data.Nat.Log

/-!
# Lemmas for the cheater search
-/

namespace Mastic

variable {P : Prims}

/-! ### Chunks -/

/-- The `j`-th chunk of size `sz`. -/
def chunkAt {α : Type} (l : List α) (sz j : Nat) : List α := (l.drop (j * sz)).take sz

theorem chunksAux_get {α : Type} {sz : Nat} (hs : 0 < sz) : ∀ (fuel : Nat) (l : List α) (i : Nat),
    l.length ≤ fuel →
    (chunksAux sz fuel l)[i]? = if i * sz < l.length then some (chunkAt l sz i) else none
  | 0, l, i, h => by
    have : l = [] := List.length_eq_zero_iff.1 (by omega)
    subst this
    simp [chunksAux]
  | fuel + 1, [], i, _ => by simp [chunksAux]
  | fuel + 1, a :: l, 0, _ => by simp [chunksAux, chunkAt]
  | fuel + 1, a :: l, i + 1, h => by
    rw [chunksAux, List.getElem?_cons_succ, chunksAux_get hs fuel _ i (by
      simp only [List.length_drop, List.length_cons] at h ⊢; omega)]
    have e : (i + 1) * sz = sz + i * sz := by ring
    unfold chunkAt
    rw [List.drop_drop, e, List.length_drop]
    have : (i * sz < (a :: l).length - sz) ↔ (sz + i * sz < (a :: l).length) := by omega
    simp only [this]

theorem chunks_ok {α : Type} {sz : Nat} (hs : 0 < sz) (l : List α) :
    ∃ cl, chunks sz l = .ok cl ∧
      ∀ i, cl[i]? = if i * sz < l.length then some (chunkAt l sz i) else none :=
  ⟨_, by unfold chunks; rw [if_neg (by omega)], fun i => chunksAux_get hs _ l i le_rfl⟩

theorem chunkAt_ne {α : Type} {l : List α} {sz j : Nat} (hs : 0 < sz) (h : j * sz < l.length) :
    chunkAt l sz j ≠ [] := by
  rw [← List.length_pos_iff]
  simp only [chunkAt, List.length_take, List.length_drop]
  omega

theorem chunkAt_length {α : Type} {l l' : List α} {sz j : Nat} (h : l.length = l'.length) :
    (chunkAt l sz j).length = (chunkAt l' sz j).length := by
  simp [chunkAt, h]

theorem chunkAt_infix {α : Type} (l : List α) (sz j : Nat) : chunkAt l sz j <:+: l :=
  (List.take_prefix _ _).isInfix.trans (List.drop_suffix _ _).isInfix

theorem chunkAt_ne_iff {l l' : List Block} {sz : Nat} (hs : 0 < sz) (j : Nat) :
    chunkAt l sz j ≠ chunkAt l' sz j ↔ ∃ p, p / sz = j ∧ Spec.differAt l l' p = true := by
  unfold Spec.differAt
  simp only [bne_iff_ne]
  constructor
  · intro h
    by_contra hc
    push Not at hc
    apply h
    apply List.ext_getElem?
    intro i
    unfold chunkAt
    simp only [List.getElem?_take, List.getElem?_drop]
    split
    · rename_i hi
      exact hc _ (by rw [Nat.mul_comm, Nat.mul_add_div hs, Nat.div_eq_of_lt hi, Nat.add_zero])
    · rfl
  · rintro ⟨p, hp, hd⟩ he
    apply hd
    have hm := Nat.div_add_mod p sz
    have hlt := Nat.mod_lt p hs
    have := congrArg (fun t => t[p % sz]?) he
    simp only [chunkAt, List.getElem?_take, List.getElem?_drop, if_pos hlt] at this
    rw [← hp, Nat.mul_comm, hm] at this
    exact this

/-! ### The Merkle roots of one request -/

/-- The positions reported for a request: both halves of every suspect, as far as they exist. -/
def halves (len sz : Nat) (ms : List Nat) : List Nat :=
  ms.flatMap fun i => if (i * 2 + 1) * sz < len then [i * 2, i * 2 + 1] else [i * 2]

/-- The root of the `j`-th chunk (`zero` only for empty chunks, which are never looked at). -/
def rootAt (P : Prims) (l : List Block) (sz j : Nat) : Block :=
  (merkleRoot P (chunkAt l sz j)).getD Block.zero

theorem rootAt_eq {l : List Block} {sz j : Nat} (hs : 0 < sz) (h : j * sz < l.length) :
    merkleRoot P (chunkAt l sz j) = some (rootAt P l sz j) := by
  obtain ⟨r, hr⟩ := merkleRoot_isSome P (chunkAt_ne hs h)
  rw [rootAt, hr]; rfl

theorem merkleForSuspect_eq {l : List Block} {sz : Nat} (hs : 0 < sz) {cl : List (List Block)}
    (hcl : ∀ i, cl[i]? = if i * sz < l.length then some (chunkAt l sz i) else none) {i : Nat}
    (hi : i * 2 * sz < l.length) :
    merkleForSuspect P cl i = .ok ((halves l.length sz [i]).map fun j => (rootAt P l sz j, j)) := by
  unfold merkleForSuspect
  have e0 : idx cl (i * 2) = .ok (chunkAt l sz (i * 2)) := by
    rw [idx_eq_ok, hcl, if_pos hi]
  rw [e0, ok_bind, rootAt_eq hs hi, unwrapO, ok_bind]
  by_cases h1 : (i * 2 + 1) * sz < l.length
  · have e1 : cl[i * 2 + 1]? = some (chunkAt l sz (i * 2 + 1)) := by rw [hcl, if_pos h1]
    have hlt := (List.getElem?_eq_some_iff.1 e1).1
    rw [if_neg (by omega), (idx_eq_ok).2 e1, ok_bind, rootAt_eq hs h1, unwrapO, ok_bind]
    simp [halves, h1]
  · have e1 : cl[i * 2 + 1]? = none := by rw [hcl, if_neg h1]
    rw [if_pos (List.getElem?_eq_none_iff.1 e1)]
    simp [halves, h1]

theorem merkleRoots_split {l : List Block} {k K : Nat} (hK : P.ceilLog2 l.length = K) (hk : 1 ≤ k)
    (hkK : k ≤ K) {ms : List Nat} (hms : ∀ i ∈ ms, i * 2 * 2 ^ (K - k) < l.length) :
    merkleRoots P l (2 ^ k) ms false
      = .ok ((halves l.length (2 ^ (K - k)) ms).map fun j => (rootAt P l (2 ^ (K - k)) j, j)) := by
  have hs : 0 < 2 ^ (K - k) := by positivity
  have h1 : (2 : Nat) ^ k ≠ 1 := by
    have : 2 ^ 1 ≤ 2 ^ k := Nat.pow_le_pow_right (by omega) hk
    omega
  have h0 : (2 : Nat) ^ k ≠ 0 := by positivity
  unfold merkleRoots
  simp only [Bool.false_eq_true, if_false, hK, if_neg h0, if_neg h1, Nat.pow_div hkK (by omega : 0 < 2)]
  obtain ⟨cl, e, hcl⟩ := chunks_ok hs l
  rw [e, ok_bind, mapE_ok_of_forall (g := fun i => (halves l.length (2 ^ (K - k)) [i]).map fun j =>
    (rootAt P l (2 ^ (K - k)) j, j))]
  · rw [ok_bind]
    congr 1
    unfold halves
    simp only [List.flatMap_cons, List.flatMap_nil, List.append_nil]
    rw [List.map_flatMap, List.flatMap_def]
  · exact fun i hi => merkleForSuspect_eq hs hcl (hms i hi)

theorem merkleRoots_whole {l : List Block} {K : Nat} (hK : P.ceilLog2 l.length = K) (hl : l ≠ [])
    (ms : List Nat) :
    merkleRoots P l 1 ms false = .ok [(rootAt P l (2 ^ K) 0, 0)] := by
  unfold merkleRoots
  have hs : 0 < 2 ^ K := by positivity
  simp only [Bool.false_eq_true, if_false, hK, if_neg (show ¬ (1 : Nat) = 0 by omega), if_true,
    Nat.div_one]
  obtain ⟨cl, e, hcl⟩ := chunks_ok hs l
  have h0 : 0 * 2 ^ K < l.length := by
    rw [Nat.zero_mul]; exact List.length_pos_iff.2 hl
  rw [e, ok_bind, (idx_eq_ok).2 (by rw [hcl, if_pos h0]), ok_bind, rootAt_eq hs h0, unwrapO, ok_bind]

theorem merkleRoots_zero {l : List Block} {k K : Nat} (hK : P.ceilLog2 l.length = K)
    (hkK : K < k) (ms : List Nat) : merkleRoots P l (2 ^ k) ms false = .error .zeroChunk := by
  have h0 : (2 : Nat) ^ k ≠ 0 := by positivity
  unfold merkleRoots
  simp only [Bool.false_eq_true, if_false, hK, if_neg h0,
    Nat.div_eq_of_lt (Nat.pow_lt_pow_right (by omega : 1 < 2) hkK)]
  rfl

theorem rootAt_ne_iff {l l' : List Block} {sz j : Nat} (hs : 0 < sz) (hl : l.length = l'.length)
    (hj : j * sz < l.length) (hc : Spec.Separated P l l') :
    rootAt P l sz j ≠ rootAt P l' sz j ↔ ∃ p, p / sz = j ∧ Spec.differAt l l' p = true := by
  rw [← chunkAt_ne_iff hs]
  refine not_congr ⟨fun h => ?_, fun h => by rw [rootAt, rootAt, h]⟩
  refine merkleRoot_inj P (chunkAt_length hl) (hc _ _ (chunkAt_infix _ _ _) (chunkAt_infix _ _ _)
    (chunkAt_length hl)) ?_
  rw [rootAt_eq hs hj, rootAt_eq hs (hl ▸ hj), h]

/-! ### Which positions the driver takes from the answers -/

theorem diffIndices_eq (js : List Nat) (f g : Nat → Block) (c0 c1 : List (List Field128)) :
    diffIndices ⟨c0, (js.map fun j => (f j, j)).map Prod.fst, (js.map fun j => (f j, j)).map Prod.snd⟩
      ⟨c1, (js.map fun j => (g j, j)).map Prod.fst, (js.map fun j => (g j, j)).map Prod.snd⟩
      = .ok (js.filter fun j => f j != g j) := by
  unfold diffIndices
  simp only [List.map_map, List.length_map]
  have e1 : (Prod.fst ∘ fun j => (f j, j)) = f := rfl
  have e2 : (Prod.fst ∘ fun j => (g j, j)) = g := rfl
  have e3 : ∀ h : Nat → Block, (Prod.snd ∘ fun j => (h j, j)) = id := fun _ => rfl
  rw [e1, e2, e3, e3, List.map_id, List.range_eq_range', ← Nat.add_zero 0]
  rw [mapE_ok_of_forall (g := fun i => if f (js.getD i 0) ≠ g (js.getD i 0) then [js.getD i 0] else [])]
  · rw [ok_bind]
    congr 1
    rw [Nat.add_zero, ← List.range_eq_range']
    induction js with
    | nil => rfl
    | cons j js ih =>
      rw [List.length_cons, List.range_succ_eq_map, List.map_cons, List.map_map, List.flatten_cons,
        List.filter_cons]
      have : (fun i => if f ((j :: js).getD i 0) ≠ g ((j :: js).getD i 0) then [(j :: js).getD i 0]
          else []) ∘ Nat.succ = fun i => if f (js.getD i 0) ≠ g (js.getD i 0) then [js.getD i 0] else [] := by
        funext i
        simp
      rw [this, ih]
      simp only [List.getD_cons_zero, bne_iff_ne]
      split <;> simp
  · intro i hi
    have hi : i < js.length := by
      simpa using hi
    have ef : idx (js.map f) i = .ok (f (js.getD i 0)) := by
      rw [idx_eq_ok, List.getElem?_map, List.getElem?_eq_getElem hi, List.getD_eq_getElem _ _ hi]; rfl
    have eg : idx (js.map g) i = .ok (g (js.getD i 0)) := by
      rw [idx_eq_ok, List.getElem?_map, List.getElem?_eq_getElem hi, List.getD_eq_getElem _ _ hi]; rfl
    have ej : idx js i = .ok (js.getD i 0) := by
      rw [idx_eq_ok, List.getElem?_eq_getElem hi, List.getD_eq_getElem _ _ hi]
    rw [ef, ok_bind, eg, ok_bind]
    split
    · rw [ej, ok_bind, ok_bind, beq_self_eq_true, assertE_true, ok_bind]
    · rfl

/-- The chunks of size `sz` that hold a differing position. -/
def Suspects (l l' : List Block) (sz : Nat) (ms : List Nat) : Prop :=
  ∀ j, j ∈ ms ↔ ∃ p, p / sz = j ∧ Spec.differAt l l' p = true

theorem differAt_lt {l l' : List Block} (hl : l.length = l'.length) {p : Nat}
    (h : Spec.differAt l l' p = true) : p < l.length := by
  by_contra hp
  rw [Spec.differAt, List.getElem?_eq_none (by omega), List.getElem?_eq_none (by omega)] at h
  simp at h

theorem exists_differ {l l' : List Block} (h : l ≠ l') : ∃ p, Spec.differAt l l' p = true := by
  by_contra hc
  push Not at hc
  refine h (List.ext_getElem? fun i => ?_)
  have := hc i
  simpa [Spec.differAt] using this

theorem Suspects.ne {l l' : List Block} {sz : Nat} {ms : List Nat} (h : Suspects l l' sz ms)
    (hd : l ≠ l') : ms ≠ [] := by
  obtain ⟨p, hp⟩ := exists_differ hd
  have := (h (p / sz)).2 ⟨p, rfl, hp⟩
  rintro rfl
  simp at this

theorem Suspects.bound {l l' : List Block} {sz : Nat} {ms : List Nat} (h : Suspects l l' (2 * sz) ms)
    (hl : l.length = l'.length) : ∀ i ∈ ms, i * 2 * sz < l.length := by
  intro i hi
  obtain ⟨p, hp, hd⟩ := (h i).1 hi
  have := differAt_lt hl hd
  have h2 := Nat.div_mul_le_self p (2 * sz)
  rw [hp] at h2
  have : i * 2 * sz = i * (2 * sz) := by ring
  omega

/-- Halving the chunks. -/
theorem Suspects.halve {l l' : List Block} {sz : Nat} {ms : List Nat} (hs : 0 < sz)
    (h : Suspects l l' (2 * sz) ms) (hl : l.length = l'.length) (hc : Spec.Separated P l l') :
    Suspects l l' sz ((halves l.length sz ms).filter fun j => rootAt P l sz j != rootAt P l' sz j) := by
  intro j
  rw [List.mem_filter, bne_iff_ne]
  constructor
  · rintro ⟨hj, hr⟩
    refine (rootAt_ne_iff hs hl ?_ hc).1 hr
    obtain ⟨i, hi, hj⟩ := List.mem_flatMap.1 hj
    have hb := h.bound hl i hi
    split at hj
    · simp only [List.mem_cons, List.not_mem_nil, or_false] at hj
      rcases hj with rfl | rfl <;> assumption
    · simp only [List.mem_cons, List.not_mem_nil, or_false] at hj
      rw [hj]; exact hb
  · rintro ⟨p, hp, hd⟩
    have hlt : j * sz < l.length := by
      have := Nat.div_mul_le_self p sz
      have := differAt_lt hl hd
      rw [hp] at *
      omega
    refine ⟨?_, (rootAt_ne_iff hs hl hlt hc).2 ⟨p, hp, hd⟩⟩
    have hi : j / 2 ∈ ms := (h _).2 ⟨p, by rw [← hp, Nat.div_div_eq_div_mul, Nat.mul_comm], hd⟩
    refine List.mem_flatMap.2 ⟨j / 2, hi, ?_⟩
    rcases Nat.mod_two_eq_zero_or_one j with h2 | h2
    · have : j / 2 * 2 = j := by omega
      rw [this]
      split <;> simp
    · have : j / 2 * 2 + 1 = j := by omega
      rw [this, if_pos hlt]
      simp

theorem Suspects.whole {l l' : List Block} {sz : Nat} (hs : l.length ≤ sz) (h0 : l ≠ [])
    (hl : l.length = l'.length) (hc : Spec.Separated P l l') :
    Suspects l l' sz ([0].filter fun j => rootAt P l sz j != rootAt P l' sz j) := by
  have hpos := List.length_pos_iff.2 h0
  intro j
  rw [List.mem_filter, bne_iff_ne, List.mem_singleton]
  constructor
  · rintro ⟨rfl, hr⟩
    exact (rootAt_ne_iff (by omega) hl (by omega) hc).1 hr
  · rintro ⟨p, hp, hd⟩
    have hlt := differAt_lt hl hd
    have : j = 0 := by rw [← hp]; exact Nat.div_eq_of_lt (by omega)
    subst this
    exact ⟨rfl, (rootAt_ne_iff (by omega) hl (by omega) hc).2 ⟨p, hp, hd⟩⟩

/-! ### Exclusion -/

theorem excludeAll_eq : ∀ (ms : List Nat) (reports : List (Bool × ReportShare)),
    (∀ i ∈ ms, i < reports.length) →
    excludeAll reports ms = .ok (Spec.dropClients (fun i => decide (i ∈ ms)) reports)
  | [], reports, _ => by
    unfold excludeAll Spec.dropClients
    simp only [foldE, List.not_mem_nil, decide_false, Bool.not_false, Bool.and_true]
    congr 1
    apply List.ext_getElem?
    simp
  | m :: ms, reports, h => by
    have hm := h m (by simp)
    have ih := excludeAll_eq ms (reports.set m (false, reports[m].2))
      (fun i hi => by rw [List.length_set]; exact h i (List.mem_cons_of_mem _ hi))
    unfold excludeAll at ih ⊢
    rw [foldE_cons, idx_eq_ok_of_lt hm, ok_bind, ok_bind, ih]
    congr 1
    unfold Spec.dropClients
    apply List.ext_getElem?
    intro i
    rw [List.getElem?_mapIdx, List.getElem?_mapIdx, List.getElem?_set]
    by_cases hi : m = i
    · subst hi
      rw [if_pos rfl, if_pos hm, List.getElem?_eq_getElem hm]
      simp
    · rw [if_neg hi]
      have : (i ∈ m :: ms) ↔ i ∈ ms := by simp [Ne.symm hi]
      simp only [this]

theorem dropClients_length (f : Nat → Bool) (r : List (Bool × ReportShare)) :
    (Spec.dropClients f r).length = r.length := by simp [Spec.dropClients]

theorem dropClients_snd (f : Nat → Bool) (r : List (Bool × ReportShare)) :
    (Spec.dropClients f r).map Prod.snd = r.map Prod.snd := by
  unfold Spec.dropClients
  apply List.ext_getElem?
  intro i
  simp only [List.getElem?_map, List.getElem?_mapIdx, Option.map_map]
  rfl

theorem dropClients_flags {f : Nat → Bool} {r r' : List (Bool × ReportShare)}
    (h : r.map Prod.fst = r'.map Prod.fst) :
    (Spec.dropClients f r).map Prod.fst = (Spec.dropClients f r').map Prod.fst := by
  apply List.ext_getElem?
  intro i
  have := congrArg (fun t => t[i]?) h
  simp only [List.getElem?_map] at this
  unfold Spec.dropClients
  simp only [List.getElem?_map, List.getElem?_mapIdx, Option.map_map]
  cases h0 : r[i]? <;> cases h1 : r'[i]? <;> simp_all

theorem dropClients_reach {m : Nat} (f : Nat → Bool) {r : List (Bool × ReportShare)}
    (h : KeysReach m r) : KeysReach m (Spec.dropClients f r) := by
  intro br hbr
  have : br.2 ∈ r.map Prod.snd := by
    rw [← dropClients_snd f]; exact List.mem_map_of_mem hbr
  obtain ⟨x, hx, e⟩ := List.mem_map.1 this
  rw [← e]
  exact h x hx

theorem included_length_congr {r r' : List (Bool × ReportShare)} (h : r.map Prod.fst = r'.map Prod.fst) :
    (Spec.included r).length = (Spec.included r').length := by
  have h0 := congrArg List.length (includedIndices_eq r)
  have h1 := congrArg List.length (includedIndices_eq r')
  rw [List.length_map] at h0 h1
  rw [← h0, ← h1, includedIndices_eq_flags, includedIndices_eq_flags, h]

/-! ### One request -/

/-- Both servers go back to the frontier of the previous level. -/
def restore (kcs : Pair2 P) : Pair2 P :=
  ({ kcs.1 with frontier := kcs.1.prevFrontier }, { kcs.2 with frontier := kcs.2.prevFrontier })

theorem At.crawl {n d m : Nat} {first : Bool} {reports : List (Bool × ReportShare)}
    {paths : List (List Bool)} {kc kc1 : KeyCollection P} {ms : List Nat} {last : Bool}
    (hp : kc.crawlPrep ms last = .ok kc1) (h : At n d m first reports paths kc1)
    (bld : Build) (hk : KeysReach m reports) (hne : paths ≠ []) (hm : m < d) {s : Nat}
    {rs : List (Block × Nat)}
    (hr : merkleRoots P (Spec.digests P n first paths reports) s ms last = .ok rs) :
    ∃ nx kc', kc.treeCrawl bld s ms last = .ok (kc',
        { cntValues := nx.map TreeNode.value, roots := rs.map Prod.fst, indices := rs.map Prod.snd }) ∧
      At n d (m + 1) first reports (kids paths) kc' ∧ kc'.frontier = nx ∧
      At n d m first reports paths { kc' with frontier := kc'.prevFrontier } ∧
      (∀ node ∈ nx, Spec.NodeSum P n reports node) := by
  obtain ⟨nx, hc, hpath, hx, hs⟩ := h.crawlLevel bld hk hne hm
  refine ⟨nx, { kc1 with prevFrontier := kc1.frontier, frontier := nx }, ?_, ?_, rfl, ?_, hs⟩
  · unfold KeyCollection.treeCrawl
    simp only [hp, ok_bind, hc, hr]
  · exact ⟨h.inputLen, h.sid, h.depth, h.rep, hpath, kids_len h.len, hx⟩
  · exact ⟨h.inputLen, h.sid, h.depth, h.rep, h.pth, h.len, h.exact⟩

theorem At.crawl_error {n d m : Nat} {first : Bool} {reports : List (Bool × ReportShare)}
    {paths : List (List Bool)} {kc kc1 : KeyCollection P} {ms : List Nat} {last : Bool}
    (hp : kc.crawlPrep ms last = .ok kc1) (h : At n d m first reports paths kc1)
    (bld : Build) (hk : KeysReach m reports) (hne : paths ≠ []) (hm : m < d) {s : Nat} {e : Panic}
    (hr : merkleRoots P (Spec.digests P n first paths reports) s ms last = .error e) :
    kc.treeCrawl bld s ms last = .error e := by
  obtain ⟨nx, hc, -, -, -⟩ := h.crawlLevel bld hk hne hm
  unfold KeyCollection.treeCrawl
  simp only [hp, ok_bind, hc, hr, error_bind]

theorem crawlBoth_ok {n d m : Nat} {r0 r1 : List (Bool × ReportShare)} {paths : List (List Bool)}
    {kcs ks : Pair2 P} {req : CrawlReq} (p0 : kcs.1.crawlPrep req.malicious req.isLast = .ok ks.1)
    (p1 : kcs.2.crawlPrep req.malicious req.isLast = .ok ks.2) (h : Both n d m r0 r1 paths ks)
    (c0 c1 : ServerCfg) (hne : paths ≠ []) (hm : m < d) (hk0 : KeysReach m r0) (hk1 : KeysReach m r1)
    (hf : r0.map Prod.fst = r1.map Prod.fst) {rs0 rs1 : List (Block × Nat)}
    (hr0 : merkleRoots P (Spec.digests P n true paths r0) req.splitBy req.malicious req.isLast = .ok rs0)
    (hr1 : merkleRoots P (Spec.digests P n false paths r1) req.splitBy req.malicious req.isLast
      = .ok rs1) :
    ∃ kcs' v0 v1, crawlBoth c0 c1 kcs req = .ok (kcs', ⟨v0, rs0.map Prod.fst, rs0.map Prod.snd⟩,
        ⟨v1, rs1.map Prod.fst, rs1.map Prod.snd⟩) ∧
      v0.length = v1.length ∧
      (∀ T, keepValues n T v0 v1 = .ok ((kids paths).map fun p =>
        decide (T ≤ Spec.countAt P n (Spec.keyPairs r0 r1) p))) ∧
      Both n d (m + 1) r0 r1 (kids paths) kcs' ∧ Both n d m r0 r1 paths (restore kcs') := by
  obtain ⟨nx0, k0, e0, a0, f0, b0, s0⟩ := At.crawl p0 h.fst c0.build hk0 hne hm hr0
  obtain ⟨nx1, k1, e1, a1, f1, b1, s1⟩ := At.crawl p1 h.snd c1.build hk1 hne hm hr1
  have hN : Nodes (P := P) n r0 r1 (kids paths) nx0 nx1 :=
    ⟨hf, kids_ne, f0 ▸ a0.pth, f1 ▸ a1.pth, s0, s1⟩
  refine ⟨(k0, k1), _, _, ?_, by simp [hN.length.1, hN.length.2], fun T => hN.keep T, ⟨a0, a1⟩, ⟨b0, b1⟩⟩
  unfold crawlBoth
  simp only [e0, e1, ok_bind]

theorem crawlBoth_error {n d m : Nat} {r0 r1 : List (Bool × ReportShare)} {paths : List (List Bool)}
    {kcs ks : Pair2 P} {req : CrawlReq} (p0 : kcs.1.crawlPrep req.malicious req.isLast = .ok ks.1)
    (h : Both n d m r0 r1 paths ks)
    (c0 c1 : ServerCfg) (hne : paths ≠ []) (hm : m < d) (hk0 : KeysReach m r0) {e : Panic}
    (hr0 : merkleRoots P (Spec.digests P n true paths r0) req.splitBy req.malicious req.isLast
      = .error e) :
    crawlBoth c0 c1 kcs req = .error e := by
  unfold crawlBoth
  rw [At.crawl_error p0 h.fst c0.build hk0 hne hm hr0, error_bind]

theorem crawlPrep_retry {kcs : Pair2 P} {ms : List Nat} (h : ms ≠ []) :
    kcs.1.crawlPrep ms false = .ok (restore kcs).1 ∧ kcs.2.crawlPrep ms false = .ok (restore kcs).2 := by
  have : ms.isEmpty = false := by cases ms <;> simp_all
  unfold KeyCollection.crawlPrep
  simp only [this, Bool.false_eq_true, if_false, ok_bind]
  exact ⟨rfl, rfl⟩

theorem At.exclude {n d m : Nat} {first : Bool} {reports : List (Bool × ReportShare)}
    {paths : List (List Bool)} {kc : KeyCollection P} {ms : List Nat}
    (h : At n d m first reports paths { kc with frontier := kc.prevFrontier })
    (hms : ms ≠ []) (hlt : ∀ i ∈ ms, i < reports.length) :
    ∃ kc1, kc.crawlPrep ms true = .ok kc1 ∧
      At n d m first (Spec.dropClients (fun i => decide (i ∈ ms)) reports) paths kc1 := by
  have he : ms.isEmpty = false := by cases ms <;> simp_all
  have hrep : kc.reportShares = reports := h.rep
  refine ⟨{ kc with
      reportShares := Spec.dropClients (fun i => decide (i ∈ ms)) reports
      frontier := kc.prevFrontier }, ?_, ?_⟩
  · unfold KeyCollection.crawlPrep
    simp only [he, Bool.false_eq_true, if_false, if_true, hrep, excludeAll_eq ms reports hlt, ok_bind]
  · refine ⟨h.inputLen, h.sid, h.depth, rfl, h.pth, h.len, ?_⟩
    rw [dropClients_snd]
    exact h.exact

theorem merkleRoots_last (l : List Block) (s : Nat) (ms : List Nat) :
    merkleRoots P l s ms true = merkleRoots P l 1 ms true := rfl

theorem merkleRoots_last_empty (s : Nat) (ms : List Nat) :
    merkleRoots P [] s ms true = .error .index := by
  unfold merkleRoots
  have hpos : 2 ^ P.ceilLog2 ([] : List Block).length ≠ 0 := by positivity
  simp only [if_true, Nat.div_one, if_neg (show ¬ (1 : Nat) = 0 by omega), chunks, if_neg hpos, ok_bind]
  rfl

theorem merkleRoots_first_empty : merkleRoots P [] 1 [] false = .error .index := by
  unfold merkleRoots
  have hpos : 2 ^ P.ceilLog2 ([] : List Block).length ≠ 0 := by positivity
  simp only [if_true, Nat.div_one, if_neg (show ¬ (1 : Nat) = 0 by omega), chunks, if_neg hpos, ok_bind,
    Bool.false_eq_true, if_false]
  rfl

/-! ### The loop -/

/-- What a level is about to return: all prefixes crawled with the reports `r0'`, `r1'`, and the
prefixes to keep. -/
def LevelDone (n d m T : Nat) (r0' r1' : List (Bool × ReportShare)) (paths : List (List Bool))
    (e : Exec (Pair2 P × List Bool × Nat)) : Prop :=
  ∃ kcs' cnt, e = .ok (kcs', (kids paths).map (fun p =>
      decide (T ≤ Spec.countAt P n (Spec.keyPairs r0' r1') p)), cnt) ∧
    Both n d (m + 1) r0' r1' (kids paths) kcs'

/-- The excluding request ends the loop. -/
theorem loop_final {n d m T num s fuel : Nat} {r0 r1 : List (Bool × ReportShare)}
    {paths : List (List Bool)} {kcs : Pair2 P} {ms : List Nat} (h : Both n d m r0 r1 paths (restore kcs))
    (c0 c1 : ServerCfg) (hne : paths ≠ []) (hm : m < d) (hk0 : KeysReach m r0) (hk1 : KeysReach m r1)
    (hf : r0.map Prod.fst = r1.map Prod.fst) (hms : ms ≠ []) (hlt : ∀ i ∈ ms, i < r0.length)
    {bad : Nat → Bool} (hbad : ∀ i, i ∈ ms ↔ bad i = true) (hs : num ≤ s) :
    (Spec.included (Spec.dropClients bad r0) = [] →
      runLevelLoop (crawlBoth c0 c1) n T num (fuel + 1) kcs ⟨s, ms, true⟩ = .error .index) ∧
    (Spec.included (Spec.dropClients bad r0) ≠ [] →
      LevelDone n d m T (Spec.dropClients bad r0) (Spec.dropClients bad r1) paths
        (runLevelLoop (crawlBoth c0 c1) n T num (fuel + 1) kcs ⟨s, ms, true⟩)) := by
  have hb : (fun i => decide (i ∈ ms)) = bad := by
    funext i
    rw [Bool.eq_iff_iff, decide_eq_true_iff, hbad]
  have hlen : r0.length = r1.length := by simpa using congrArg List.length hf
  obtain ⟨k0, p0, a0⟩ := At.exclude h.fst hms hlt
  obtain ⟨k1, p1, a1⟩ := At.exclude h.snd hms (hlen ▸ hlt)
  rw [hb] at a0 a1
  have hB : Both n d m (Spec.dropClients bad r0) (Spec.dropClients bad r1) paths (k0, k1) := ⟨a0, a1⟩
  have hk0' := dropClients_reach bad hk0
  have hk1' := dropClients_reach bad hk1
  have hf' := dropClients_flags (f := bad) hf
  constructor
  · intro hi
    rw [runLevelLoop, crawlBoth_error (ks := (k0, k1)) (req := ⟨s, ms, true⟩) p0 hB c0 c1 hne hm hk0'
      (e := .index), error_bind]
    have : Spec.digests P n true paths (Spec.dropClients bad r0) = [] := by
      rw [← List.length_eq_zero_iff, digests_length hk0', hi]; rfl
    rw [this]
    exact merkleRoots_last_empty _ _
  · intro hi
    have hi1 : Spec.included (Spec.dropClients bad r1) ≠ [] := by
      rw [← List.length_pos_iff] at hi ⊢
      rwa [included_length_congr hf'] at hi
    obtain ⟨root0, hr0⟩ := merkleRoots_one (P := P) (digests_ne hk0' hi (n := n) (first := true)
      (paths := paths)) ms true
    obtain ⟨root1, hr1⟩ := merkleRoots_one (P := P) (digests_ne hk1' hi1 (n := n) (first := false)
      (paths := paths)) ms true
    obtain ⟨kcs', v0, v1, e, hv, hkeep, hB', -⟩ := crawlBoth_ok (ks := (k0, k1)) (req := ⟨s, ms, true⟩)
      p0 p1 hB c0 c1 hne hm hk0' hk1' hf' hr0 hr1
    refine ⟨kcs', 1, ?_, hB'⟩
    rw [runLevelLoop, e, ok_bind]
    dsimp only
    rw [hv, beq_self_eq_true, assertE_true, ok_bind, hkeep T, ok_bind]
    have hdiff := diffIndices_eq [0] (fun _ => root0) (fun _ => root1) v0 v1
    simp only [List.map_cons, List.map_nil] at hdiff ⊢
    rw [hdiff, ok_bind]
    simp only [List.isEmpty_cons, Bool.false_eq_true, if_pos hs, if_true, ite_self]

/-- What the search does from some point on, for lists of digests `l`, `l'` (`2 ^ K` the size of the tree). -/
structure Outcome (n d m T num K : Nat) (r0 r1 : List (Bool × ReportShare)) (paths : List (List Bool))
    (bad : Nat → Bool) (e : Exec (Pair2 P × List Bool × Nat)) : Prop where
  zero : 2 ^ K < num → e = .error .zeroChunk
  none : num ≤ 2 ^ K → Spec.included (Spec.dropClients bad r0) = [] → e = .error .index
  done : num ≤ 2 ^ K → Spec.included (Spec.dropClients bad r0) ≠ [] →
    LevelDone n d m T (Spec.dropClients bad r0) (Spec.dropClients bad r1) paths e

theorem Outcome.count {n d m T num K : Nat} {r0 r1 : List (Bool × ReportShare)}
    {paths : List (List Bool)} {bad : Nat → Bool} {e : Exec (Pair2 P × List Bool × Nat)}
    (h : Outcome n d m T num K r0 r1 paths bad e) :
    Outcome n d m T num K r0 r1 paths bad (do
      let (sF, keepF, cnt) ← e
      .ok (sF, keepF, cnt + 1)) := by
  refine ⟨fun h1 => ?_, fun h1 h2 => ?_, fun h1 h2 => ?_⟩
  · rw [h.zero h1]; rfl
  · rw [h.none h1 h2]; rfl
  · obtain ⟨kcs', cnt, e, hB⟩ := h.done h1 h2
    exact ⟨kcs', cnt + 1, by rw [e]; rfl, hB⟩

/-- The search from the request with `2 ^ k` parts on. -/
theorem loop_search {n d m T num K : Nat} {r0 r1 : List (Bool × ReportShare)}
    {paths : List (List Bool)}
    (c0 c1 : ServerCfg) (hne : paths ≠ []) (hm : m < d) (hk0 : KeysReach m r0) (hk1 : KeysReach m r1)
    (hf : r0.map Prod.fst = r1.map Prod.fst)
    {l l' : List Block} (el : Spec.digests P n true paths r0 = l) (el' : Spec.digests P n false paths r1 = l')
    (hl : l.length = l'.length) (hd : l ≠ l') (hK : P.ceilLog2 l.length = K)
    (hnum : ∀ k < K, 2 ^ k < num) (hle : l.length ≤ r0.length)
    (hc : Spec.Separated P l l') :
    ∀ (j k fuel : Nat) (kcs : Pair2 P) (ms : List Nat), k + j = K + 1 → 1 ≤ k → j + 1 ≤ fuel →
      Both n d m r0 r1 paths (restore kcs) → Suspects l l' (2 ^ j) ms →
      (2 ^ (k - 1) < num) →
      Outcome n d m T num K r0 r1 paths (Spec.differAt l l')
        (runLevelLoop (crawlBoth c0 c1) n T num fuel kcs ⟨2 ^ k, ms, false⟩) := by
  intro j
  induction j with
  | zero =>
    intro k fuel kcs ms hkj hk1' hfu hB hS hlt
    obtain ⟨fuel, rfl⟩ : ∃ f, fuel = f + 1 := ⟨fuel - 1, by omega⟩
    have hk' : k - 1 = K := by omega
    have hms := hS.ne hd
    have hp := crawlPrep_retry (kcs := kcs) hms
    have herr : crawlBoth c0 c1 kcs ⟨2 ^ k, ms, false⟩ = .error .zeroChunk :=
      crawlBoth_error (ks := restore kcs) (req := ⟨2 ^ k, ms, false⟩) hp.1 hB c0 c1 hne hm hk0
        (by rw [el]; exact merkleRoots_zero hK (by omega) _)
    refine ⟨fun _ => ?_, fun h => ?_, fun h => ?_⟩
    · rw [runLevelLoop, herr, error_bind]
    · rw [hk'] at hlt; omega
    · rw [hk'] at hlt; omega
  | succ j ih =>
    intro k fuel kcs ms hkj hk1' hfu hB hS hlt
    obtain ⟨fuel, rfl⟩ : ∃ f, fuel = f + 1 := ⟨fuel - 1, by omega⟩
    have hms := hS.ne hd
    have hp := crawlPrep_retry (kcs := kcs) hms
    have hKk : K - k = j := by omega
    rw [Nat.pow_succ, Nat.mul_comm] at hS
    have hb0 := hS.bound hl
    have hr0 := merkleRoots_split (P := P) (l := l) (k := k) hK hk1' (by omega) (ms := ms)
      (by rw [hKk]; exact hb0)
    have hr1 := merkleRoots_split (P := P) (l := l') (k := k) (hl ▸ hK) hk1' (by omega) (ms := ms)
      (by rw [hKk, ← hl]; exact hb0)
    rw [hKk] at hr0 hr1
    rw [← hl] at hr1
    obtain ⟨kcs', v0, v1, e, hv, hkeep, -, hB'⟩ := crawlBoth_ok (ks := restore kcs)
      (req := ⟨2 ^ k, ms, false⟩) hp.1 hp.2 hB c0 c1 hne hm hk0 hk1 hf
      (by rw [el]; exact hr0) (by rw [el']; exact hr1)
    have hS' := hS.halve (P := P) (by positivity) hl hc
    have hdiff := diffIndices_eq (halves l.length (2 ^ j) ms) (rootAt P l (2 ^ j)) (rootAt P l' (2 ^ j))
      v0 v1
    have hms' := hS'.ne hd
    have hme : ((halves l.length (2 ^ j) ms).filter fun i =>
        rootAt P l (2 ^ j) i != rootAt P l' (2 ^ j) i).isEmpty = false := by
      simpa using hms'
    have hro : (((halves l.length (2 ^ j) ms).map fun i => (rootAt P l (2 ^ j) i, i)).map
        Prod.fst).isEmpty = false := by
      have : halves l.length (2 ^ j) ms ≠ [] := by
        intro h0
        rw [h0] at hms'
        exact hms' rfl
      simpa using this
    rw [runLevelLoop, e, ok_bind]
    dsimp only
    rw [hv, beq_self_eq_true, assertE_true, ok_bind, hkeep T, ok_bind, hro, hdiff, ok_bind, hme]
    simp only [Bool.false_eq_true, if_false]
    by_cases hn : num ≤ 2 ^ k
    · have hkK : k = K := by
        by_contra hne'
        have := hnum k (by omega)
        omega
      have hj : j = 0 := by omega
      subst hj
      subst hkK
      rw [if_pos hn]
      obtain ⟨fuel, rfl⟩ : ∃ f, fuel = f + 1 := ⟨fuel - 1, by omega⟩
      refine Outcome.count ?_
      have hbad : ∀ i, i ∈ ((halves l.length (2 ^ 0) ms).filter fun i =>
          rootAt P l (2 ^ 0) i != rootAt P l' (2 ^ 0) i) ↔ Spec.differAt l l' i = true := by
        intro i
        rw [hS' i]
        simp
      have hfin := loop_final (T := T) (num := num) (s := 2 ^ k) (fuel := fuel) hB' c0 c1 hne hm hk0 hk1 hf
        hms' (fun i hi => lt_of_lt_of_le (differAt_lt hl ((hbad i).1 hi)) hle) hbad hn
      exact ⟨fun h => by omega, fun _ => hfin.1, fun _ => hfin.2⟩
    · rw [if_neg hn, ← Nat.pow_succ]
      refine Outcome.count (ih (k + 1) fuel kcs' _ (by omega) (by omega) (by omega) hB' hS' ?_)
      rw [Nat.add_sub_cancel]; omega

/-- The whole search. -/
theorem loop_start {n d m T num K fuel : Nat} {r0 r1 : List (Bool × ReportShare)}
    {paths : List (List Bool)} {kcs : Pair2 P} (hB : Both n d m r0 r1 paths kcs)
    (c0 c1 : ServerCfg) (hne : paths ≠ []) (hm : m < d) (hk0 : KeysReach m r0) (hk1 : KeysReach m r1)
    (hf : r0.map Prod.fst = r1.map Prod.fst)
    {l l' : List Block} (el : Spec.digests P n true paths r0 = l) (el' : Spec.digests P n false paths r1 = l')
    (hl : l.length = l'.length) (hd : l ≠ l') (hK : P.ceilLog2 l.length = K) (hKl : l.length ≤ 2 ^ K)
    (hnum : ∀ k < K, 2 ^ k < num) (hle : l.length ≤ r0.length)
    (hc : Spec.Separated P l l') (hfu : K + 3 ≤ fuel) :
    Outcome n d m T num K r0 r1 paths (Spec.differAt l l')
      (runLevelLoop (crawlBoth c0 c1) n T num fuel kcs ⟨1, [], false⟩) := by
  obtain ⟨fuel, rfl⟩ : ∃ f, fuel = f + 1 := ⟨fuel - 1, by omega⟩
  have hl0 : l ≠ [] := by
    rintro rfl
    exact hd (List.length_eq_zero_iff.1 hl.symm).symm
  have hl1 : l' ≠ [] := by
    rintro rfl
    exact hd (List.length_eq_zero_iff.1 hl)
  have hr0 := merkleRoots_whole (P := P) hK hl0 []
  have hr1 := merkleRoots_whole (P := P) (hl ▸ hK) hl1 []
  obtain ⟨kcs', v0, v1, e, hv, hkeep, -, hB'⟩ := crawlBoth_ok (kcs := kcs) (ks := kcs)
    (req := ⟨1, [], false⟩) rfl rfl hB c0 c1 hne hm hk0 hk1 hf
    (by rw [el]; exact hr0) (by rw [el']; exact hr1)
  have hS' := Suspects.whole (P := P) hKl hl0 hl hc
  have hdiff := diffIndices_eq [0] (rootAt P l (2 ^ K)) (rootAt P l' (2 ^ K)) v0 v1
  have hms' := hS'.ne hd
  have hme : ([0].filter fun i => rootAt P l (2 ^ K) i != rootAt P l' (2 ^ K) i).isEmpty = false := by
    rw [List.isEmpty_eq_false_iff]
    exact hms'
  rw [runLevelLoop, e, ok_bind]
  dsimp only
  rw [hv, beq_self_eq_true, assertE_true, ok_bind, hkeep T, ok_bind]
  simp only [List.map_cons, List.map_nil] at hdiff ⊢
  rw [hdiff, ok_bind, hme]
  simp only [List.isEmpty_cons, Bool.false_eq_true, if_false]
  by_cases hn : num ≤ 1
  · have hK0 : K = 0 := by
      by_contra hne'
      have := hnum 0 (by omega)
      omega
    subst hK0
    rw [if_pos hn]
    obtain ⟨fuel, rfl⟩ : ∃ f, fuel = f + 1 := ⟨fuel - 1, by omega⟩
    refine Outcome.count ?_
    have hbad : ∀ i, i ∈ ([0].filter fun i =>
        rootAt P l (2 ^ 0) i != rootAt P l' (2 ^ 0) i) ↔ Spec.differAt l l' i = true := by
      intro i
      rw [hS' i]
      simp
    have hfin := loop_final (T := T) (num := num) (s := 1) (fuel := fuel) hB' c0 c1 hne hm hk0 hk1 hf
      hms' (fun i hi => lt_of_lt_of_le (differAt_lt hl ((hbad i).1 hi)) hle) hbad hn
    exact ⟨fun h => by omega, fun _ => hfin.1, fun _ => hfin.2⟩
  · rw [if_neg hn]
    refine Outcome.count ?_
    have := loop_search (T := T) c0 c1 hne hm hk0 hk1 hf el el' hl hd hK hnum hle hc K 1 fuel kcs' _
      (by omega) le_rfl (by omega) hB' hS' (by simpa using hn)
    simpa using this

/-! ### Clients and their positions among the digests -/

theorem included_filterMap {α : Type} (g : VidpfKey → α) (reports : List (Bool × ReportShare)) :
    ((Spec.included reports).filterMap fun ir => (Spec.keyOf ir.2).map g)
      = reports.filterMap fun br => if br.1 then (Spec.keyOf br.2).map g else none := by
  unfold Spec.included
  rw [List.filterMap_filterMap]
  have : ∀ (l : List (Bool × ReportShare)) (k : Nat), (l.zipIdx k).filterMap (fun x =>
      (if x.1.1 = true then some (x.2, x.1.2) else none).bind fun ir => (Spec.keyOf ir.2).map g)
      = l.filterMap fun br => if br.1 then (Spec.keyOf br.2).map g else none := by
    intro l
    induction l with
    | nil => intro k; rfl
    | cons x l ih =>
      intro k
      obtain ⟨b, r⟩ := x
      rw [List.zipIdx_cons, List.filterMap_cons, List.filterMap_cons, ih]
      cases b <;> simp
  exact this reports 0

theorem digests_eq_filterMap (n : Nat) (first : Bool) (paths : List (List Bool))
    (reports : List (Bool × ReportShare)) :
    Spec.digests P n first paths reports = reports.filterMap fun br =>
      if br.1 then (Spec.keyOf br.2).map (Spec.digestAt P n first paths) else none :=
  included_filterMap _ _

/-- Client `i` is included and the values `g0`, `g1` of its two keys differ. -/
def disagreeBy (g0 g1 : VidpfKey → Block) (r0 r1 : List (Bool × ReportShare)) (i : Nat) : Bool :=
  match r0[i]?, r1[i]? with
  | some (true, a), some (true, b) => (Spec.keyOf a).map g0 != (Spec.keyOf b).map g1
  | _, _ => false

theorem differBy_iff {m : Nat} {g0 g1 : VidpfKey → Block} : ∀ {r0 r1 : List (Bool × ReportShare)},
    KeysReach m r0 → KeysReach m r1 → r0.map Prod.fst = r1.map Prod.fst → ∀ j,
    (Spec.differAt (r0.filterMap fun br => if br.1 then (Spec.keyOf br.2).map g0 else none)
        (r1.filterMap fun br => if br.1 then (Spec.keyOf br.2).map g1 else none) j = true ↔
      ∃ c, disagreeBy g0 g1 r0 r1 c = true ∧ Spec.rank r0 c = j)
  | [], [], _, _, _, j => by simp [Spec.differAt, disagreeBy]
  | [], _ :: _, _, _, h, _ => by simp at h
  | _ :: _, [], _, _, h, _ => by simp at h
  | (b, x) :: r0, (b', y) :: r1, h0, h1, hf, j => by
    simp only [List.map_cons, List.cons.injEq] at hf
    obtain ⟨rfl, hf⟩ := hf
    obtain ⟨kx, ex, -⟩ := h0 (b, x) (by simp)
    obtain ⟨ky, ey, -⟩ := h1 (b, y) (by simp)
    have ih := differBy_iff (g0 := g0) (g1 := g1) (r0 := r0) (r1 := r1)
      (fun br h => h0 br (by simp [h])) (fun br h => h1 br (by simp [h])) hf
    simp only at ex ey
    have hsucc : ∀ c, disagreeBy g0 g1 ((b, x) :: r0) ((b, y) :: r1) (c + 1)
        = disagreeBy g0 g1 r0 r1 c := by
      intro c
      simp [disagreeBy]
    cases b with
    | false =>
      simp only [List.filterMap_cons, Bool.false_eq_true, if_false]
      rw [ih j]
      constructor
      · rintro ⟨c, hc, hr⟩
        exact ⟨c + 1, by rw [hsucc]; exact hc, by simpa [Spec.rank] using hr⟩
      · rintro ⟨c, hc, hr⟩
        cases c with
        | zero => simp [disagreeBy] at hc
        | succ c => exact ⟨c, by rw [← hsucc]; exact hc, by simpa [Spec.rank] using hr⟩
    | true =>
      simp only [List.filterMap_cons, if_true, ex, ey, Option.map_some]
      cases j with
      | zero =>
        constructor
        · intro h
          refine ⟨0, ?_, rfl⟩
          simpa [disagreeBy, ex, ey, Spec.differAt] using h
        · rintro ⟨c, hc, hr⟩
          cases c with
          | zero => simpa [disagreeBy, ex, ey, Spec.differAt] using hc
          | succ c => simp [Spec.rank] at hr
      | succ j =>
        have : ∀ (a b : Block) (l l' : List Block), Spec.differAt (a :: l) (b :: l') (j + 1)
            = Spec.differAt l l' j := by
          intro a b l l'
          simp [Spec.differAt]
        rw [this, ih j]
        constructor
        · rintro ⟨c, hc, hr⟩
          exact ⟨c + 1, by rw [hsucc]; exact hc, by simpa [Spec.rank] using hr⟩
        · rintro ⟨c, hc, hr⟩
          cases c with
          | zero => simp [Spec.rank] at hr
          | succ c => exact ⟨c, by rw [← hsucc]; exact hc, by simpa [Spec.rank] using hr⟩

theorem differAt_iff {n m : Nat} {paths : List (List Bool)} {r0 r1 : List (Bool × ReportShare)}
    (h0 : KeysReach m r0) (h1 : KeysReach m r1) (hf : r0.map Prod.fst = r1.map Prod.fst) (j : Nat) :
    Spec.differAt (Spec.digests P n true paths r0) (Spec.digests P n false paths r1) j = true ↔
      ∃ c, Spec.disagree P n paths r0 r1 c = true ∧ Spec.rank r0 c = j := by
  rw [digests_eq_filterMap, digests_eq_filterMap]
  exact differBy_iff h0 h1 hf j

theorem rank_all {r : List (Bool × ReportShare)} (h : ∀ x ∈ r, x.1 = true) {i : Nat} (hi : i ≤ r.length) :
    Spec.rank r i = i := by
  unfold Spec.rank
  rw [List.countP_eq_length.2 (fun x hx => h x (List.mem_of_mem_take hx)), List.length_take]
  omega

theorem rank_lt {r : List (Bool × ReportShare)} {e i : Nat} (he : e < i) (hi : i ≤ r.length)
    {x : ReportShare} (hx : r[e]? = some (false, x)) : Spec.rank r i < i := by
  unfold Spec.rank
  have h1 : (r.take i).length = i := by rw [List.length_take]; omega
  have h2 : (r.take i).countP Prod.fst ≤ (r.take i).length := List.countP_le_length
  refine lt_of_le_of_ne (by omega) fun h => ?_
  have := List.countP_eq_length.1 (h.trans h1.symm) (false, x)
    (List.mem_of_getElem? (i := e) (by rw [List.getElem?_take, if_pos he, hx]))
  simp at this

theorem included_count (r : List (Bool × ReportShare)) : (Spec.included r).length = r.countP Prod.fst := by
  unfold Spec.included
  have : ∀ (l : List (Bool × ReportShare)) (k : Nat), ((l.zipIdx k).filterMap fun x =>
      if x.1.1 = true then some (x.2, x.1.2) else none).length = l.countP Prod.fst := by
    intro l
    induction l with
    | nil => intro k; rfl
    | cons x l ih =>
      intro k
      obtain ⟨b, r⟩ := x
      rw [List.zipIdx_cons, List.filterMap_cons, List.countP_cons]
      cases b <;> simp [ih]
  exact this r 0

/-- From and to the specification's level states. -/
theorem LevelState.both {n d m : Nat} {paths : List (List Bool)} {kcs : Pair2 P}
    (h : Spec.LevelState P n d m paths kcs) :
    Both n d m kcs.1.reportShares kcs.2.reportShares paths kcs :=
  ⟨⟨h.inputLen.1, by simp [h.ids.1], h.depth.1, rfl, h.same.1, h.len, h.exact.1⟩,
    ⟨h.inputLen.2, by simp [h.ids.2], h.depth.2, rfl, h.same.2, h.len, h.exact.2⟩⟩

theorem LevelState.reach {n d m : Nat} {paths : List (List Bool)} {kcs : Pair2 P}
    (h : Spec.LevelState P n d m paths kcs) (hm : m < d) :
    KeysReach m kcs.1.reportShares ∧ KeysReach m kcs.2.reportShares := by
  refine ⟨fun br hbr => ?_, fun br hbr => ?_⟩
  · obtain ⟨key, e, h1, h2⟩ := h.keys br (by simp [hbr])
    exact ⟨key, e, h1, by omega⟩
  · obtain ⟨key, e, h1, h2⟩ := h.keys br (by simp [hbr])
    exact ⟨key, e, h1, by omega⟩

theorem LevelState.of_both {n d m : Nat} {paths : List (List Bool)} {kcs : Pair2 P}
    {r0 r1 : List (Bool × ReportShare)} (h : Both n d m r0 r1 paths kcs)
    (hf : r0.map Prod.fst = r1.map Prod.fst)
    (hk : ∀ r ∈ r0 ++ r1, ∃ key, Spec.keyOf r.2 = some key ∧
      key.cs.length = key.corWords.length ∧ d ≤ key.corWords.length) :
    Spec.LevelState P n d m paths kcs where
  inputLen := ⟨h.fst.inputLen, h.snd.inputLen⟩
  ids := ⟨by simpa using h.fst.sid, by simpa using h.snd.sid⟩
  depth := ⟨h.fst.depth, h.snd.depth⟩
  same := ⟨h.fst.pth, h.snd.pth⟩
  len := h.fst.len
  exact := ⟨h.fst.rep.symm ▸ h.fst.exact, h.snd.rep.symm ▸ h.snd.exact⟩
  flags := by rw [h.fst.rep, h.snd.rep]; exact hf
  keys := by rw [h.fst.rep, h.snd.rep]; exact hk

theorem dropClients_keys {d : Nat} {bad : Nat → Bool} {r0 r1 : List (Bool × ReportShare)}
    (hk : ∀ r ∈ r0 ++ r1, ∃ key, Spec.keyOf r.2 = some key ∧
      key.cs.length = key.corWords.length ∧ d ≤ key.corWords.length) :
    ∀ r ∈ Spec.dropClients bad r0 ++ Spec.dropClients bad r1, ∃ key, Spec.keyOf r.2 = some key ∧
      key.cs.length = key.corWords.length ∧ d ≤ key.corWords.length := by
  intro r hr
  have : r.2 ∈ (r0 ++ r1).map Prod.snd := by
    rw [List.map_append, ← dropClients_snd bad r0, ← dropClients_snd bad r1, ← List.map_append]
    exact List.mem_map_of_mem hr
  obtain ⟨x, hx, e⟩ := List.mem_map.1 this
  rw [← e]
  exact hk x hx

theorem included_le (r : List (Bool × ReportShare)) : (Spec.included r).length ≤ r.length := by
  rw [included_count]; exact List.countP_le_length

/-- A level on which the digests of some included clients differ. -/
theorem runLevel_differ {n d m : Nat} {paths : List (List Bool)} {kcs : Pair2 P} {cfg : Config} {num K : Nat}
    (h : Spec.LevelState P n d m paths kcs) (c0 c1 : ServerCfg) (hn : cfg.histBuckets = n)
    (hne : paths ≠ []) (hm : m < d) (hnum : kcs.1.reportShares.length = num)
    (hK : Nat.clog 2 (Spec.included kcs.1.reportShares).length = K)
    (hlog : P.ceilLog2 (Spec.included kcs.1.reportShares).length = K)
    (hsep : Spec.Separated P (Spec.digests P n true paths kcs.1.reportShares)
      (Spec.digests P n false paths kcs.2.reportShares))
    (hdis : ∃ c, Spec.disagree P n paths kcs.1.reportShares kcs.2.reportShares c = true)
    {bad : Nat → Bool}
    (hbad : ∀ j, bad j = true ↔
      ∃ c, Spec.disagree P n paths kcs.1.reportShares kcs.2.reportShares c = true ∧
        Spec.rank kcs.1.reportShares c = j) :
    (2 ^ K < num → runLevel c0 c1 cfg kcs num = .error .zeroChunk) ∧
    (num ≤ 2 ^ K → (∀ r ∈ Spec.dropClients bad kcs.1.reportShares, r.1 = false) →
      runLevel c0 c1 cfg kcs num = .error .index) ∧
    (num ≤ 2 ^ K → (∃ r ∈ Spec.dropClients bad kcs.1.reportShares, r.1 = true) →
      ∃ kcs', runLevel c0 c1 cfg kcs num = .ok kcs' ∧
        kcs'.1.reportShares = Spec.dropClients bad kcs.1.reportShares ∧
        kcs'.2.reportShares = Spec.dropClients bad kcs.2.reportShares ∧
        Spec.LevelState P n d (m + 1) (Spec.heavyChildren P n (max 1 cfg.threshold)
          (Spec.dropClients bad kcs.1.reportShares) (Spec.dropClients bad kcs.2.reportShares) paths)
          kcs') := by
  obtain ⟨hk0, hk1⟩ := LevelState.reach h hm
  have hl0 := digests_length (P := P) (n := n) (first := true) (paths := paths) hk0
  have hl1 := digests_length (P := P) (n := n) (first := false) (paths := paths) hk1
  have hd := differAt_iff (P := P) (n := n) (paths := paths) hk0 hk1 h.flags
  have hb : Spec.differAt (Spec.digests P n true paths kcs.1.reportShares)
      (Spec.digests P n false paths kcs.2.reportShares) = bad := by
    funext j
    rw [Bool.eq_iff_iff, hd j, hbad j]
  have hle : (Spec.included kcs.1.reportShares).length ≤ num := by
    rw [included_count, ← hnum]; exact List.countP_le_length
  have hKn : ∀ k < K, 2 ^ k < num := by
    intro k hk
    refine lt_of_lt_of_le ?_ hle
    rw [← hK] at hk
    exact Nat.lt_clog_iff_pow_lt (by omega) |>.1 hk
  have hKle : K ≤ num := by
    rw [← hK]
    exact (Nat.clog_mono_right 2 hle).trans (Nat.clog_le_of_le_pow (Nat.lt_pow_self (by omega)).le)
  have hout := loop_start (T := max 1 cfg.threshold) (num := num) (K := K) (fuel := num + 3) (LevelState.both h)
    c0 c1 hne hm hk0 hk1 h.flags rfl rfl
    (by rw [hl0, hl1, included_length_congr h.flags])
    (by
      intro he
      obtain ⟨c, hc⟩ := hdis
      have := (hd _).2 ⟨c, hc, rfl⟩
      rw [he] at this
      simp [Spec.differAt] at this)
    (by rw [hl0]; exact hlog)
    (by rw [hl0, ← hK]; exact Nat.le_pow_clog (by omega) _)
    hKn (by rw [hl0, hnum]; exact hle) hsep (by omega)
  rw [hb] at hout
  have hempty : ∀ r : List (Bool × ReportShare), Spec.included r = [] ↔ ∀ x ∈ r, x.1 = false := by
    intro r
    rw [← List.length_eq_zero_iff, included_count, List.countP_eq_zero]
    exact forall_congr' fun x => by simp
  unfold runLevel searchLevel
  rw [hn]
  refine ⟨fun h1 => ?_, fun h1 h2 => ?_, fun h1 h2 => ?_⟩
  · rw [hout.zero h1, error_bind]
  · rw [hout.none h1 ((hempty _).2 h2), error_bind]
  · obtain ⟨kcs', cnt, e, hB⟩ := hout.done h1 (by
      rw [Ne, hempty]
      obtain ⟨r, hr, ht⟩ := h2
      intro hall
      have := hall r hr
      rw [ht] at this
      cases this)
    rw [e, ok_bind]
    dsimp only
    obtain ⟨k0', p0, e0, b0⟩ := hB.fst.prune fun p => decide (max 1 cfg.threshold ≤
      Spec.countAt P n (Spec.keyPairs (Spec.dropClients bad kcs.1.reportShares)
        (Spec.dropClients bad kcs.2.reportShares)) p)
    obtain ⟨k1', p1, e1, b1⟩ := hB.snd.prune fun p => decide (max 1 cfg.threshold ≤
      Spec.countAt P n (Spec.keyPairs (Spec.dropClients bad kcs.1.reportShares)
        (Spec.dropClients bad kcs.2.reportShares)) p)
    refine ⟨(k0', k1'), ?_, b0.rep, b1.rep, ?_⟩
    · simp only [pruneBoth, p0, p1, ok_bind]
    · exact LevelState.of_both (P := P) (kcs := (k0', k1')) ⟨b0, b1⟩ (dropClients_flags h.flags)
        (dropClients_keys h.keys)

end Mastic
