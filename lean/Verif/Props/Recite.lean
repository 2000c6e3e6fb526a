import Verif.Lemmas.Recite
import Verif.Props.Deviate
import Verif.Props.RunHide
import Verif.Lemmas.Inflate
import Verif.Lemmas.Face
import Verif.Spec.Recite

/-!
# C102: a server that makes up the result
-/

namespace Mastic

variable {P : Prims} {c c0 c1 : ServerCfg}

theorem addShares_comm (a b : List Field128) : Spec.addShares a b = Spec.addShares b a := by
  unfold Spec.addShares
  rw [List.zipWith_comm]
  congr 1
  funext x y
  exact add_comm _ _

theorem heavyAt_length {T : Nat} {strings : List (Option (List Bool))} {m : Nat} :
    ∀ p ∈ Spec.heavyAt T strings m, p.length = m := fun _ hp => mem_allPaths.1 (List.mem_filter.1 hp).1

theorem filter_sublist {α : Type} [DecidableEq α] {l l' : List α} (h : l.Sublist l') (hn : l'.Nodup) :
    l'.filter (fun x => decide (x ∈ l)) = l := by
  induction h with
  | slnil => rfl
  | @cons l l' a h ih =>
    obtain ⟨ha, hn⟩ := List.nodup_cons.1 hn
    rw [List.filter_cons_of_neg (by simpa using fun hh => ha (h.subset hh)), ih hn]
  | @cons_cons l l' a h ih =>
    obtain ⟨ha, hn⟩ := List.nodup_cons.1 hn
    rw [List.filter_cons_of_pos (by simp)]
    congr 1
    conv_rhs => rw [← ih hn]
    refine List.filter_congr fun x hx => ?_
    rw [decide_eq_decide, List.mem_cons]
    refine ⟨fun hh => hh.resolve_left ?_, .inr⟩
    rintro rfl
    exact ha hx

theorem countOf_some (strings : List (List Bool)) (p : List Bool) :
    Spec.countOf (strings.map some) p = Spec.holding strings p := by
  unfold Spec.countOf Spec.holding
  rw [List.countP_map]
  rfl

/-- The strings of the full length with at least one holder. -/
theorem heavyAt_full {d : Nat} {hit : List (List Bool)} (hd : 1 ≤ d) (h : hit.Sublist (Spec.allPaths d)) :
    Spec.heavyAt 1 (hit.map some) d = hit := by
  rw [Spec.heavyAt]
  conv_rhs => rw [← filter_sublist h (allPaths_nodup d)]
  refine List.filter_congr fun p hp => ?_
  have hl : p.length = d := mem_allPaths.1 hp
  rw [countOf_some, Spec.holding]
  have hp : p.isEmpty = false := by
    cases p with
    | nil => simp at hl; omega
    | cons => rfl
  rw [hp, Bool.false_or, decide_eq_decide, Nat.succ_le_iff, List.countP_pos_iff]
  constructor
  · rintro ⟨q, hq, hpq⟩
    have hq' : q.length = d := mem_allPaths.1 (h.subset hq)
    rwa [List.IsPrefix.eq_of_length (List.isPrefixOf_iff_prefix.1 hpq) (hl.trans hq'.symm)]
  · exact fun hh => ⟨p, hh, by simp⟩

theorem heavyAt_hit_ne {d m : Nat} {hit : List (List Bool)} (hm : m ≤ d) (h : hit.Sublist (Spec.allPaths d)) (hne : hit ≠ []) :
    Spec.heavyAt 1 (hit.map some) m ≠ [] := by
  obtain ⟨p, hp⟩ := List.exists_mem_of_ne_nil _ hne
  have hl : p.length = d := mem_allPaths.1 (h.subset hp)
  refine List.ne_nil_of_mem (a := p.take m) (List.mem_filter.2 ⟨mem_allPaths.2 (by simp [hl, hm]), ?_⟩)
  rw [Bool.or_eq_true]
  refine .inr (decide_eq_true ?_)
  rw [countOf_some, Spec.holding, Nat.succ_le_iff, List.countP_pos_iff]
  exact ⟨p, hp, List.isPrefixOf_iff_prefix.2 (List.take_prefix _ _)⟩

theorem decided_forged {n T : Nat} {A B : List Bool → List Field128} {cnt : List Bool → Nat} (f : List Bool → Bool)
    (h : ∀ p, ∃ x y, (A p)[n]? = some x ∧ (B p)[n]? = some y ∧ x + y = (cnt p : Field128)) (h1 : 1 ≤ T) (h2 : T < 2 ^ 64) :
    Decided n T (fun p => (A p).modify n (· + ((if f p then (T : Field128) else 0) - (cnt p : Field128)))) B f := by
  intro p
  obtain ⟨x, y, hx, hy, hs⟩ := h p
  refine ⟨x + ((if f p then (T : Field128) else 0) - (cnt p : Field128)), y, ?_, hy, ?_⟩
  · rw [List.getElem?_modify_eq, hx]
    rfl
  · rw [show x + ((if f p then (T : Field128) else 0) - (cnt p : Field128)) + y = if f p then (T : Field128) else 0 by
      rw [← hs]; ring]
    cases f p with
    | false => simp; omega
    | true =>
      rw [if_pos rfl, ZMod.val_natCast, Nat.mod_eq_of_lt (lt_trans h2 (by norm_num [fieldModulus])), Nat.mod_eq_of_lt h2]
      simp

theorem Decided.symm {n T : Nat} {A B : List Bool → List Field128} {f : List Bool → Bool} (h : Decided n T A B f) :
    Decided n T B A f := by
  intro p
  obtain ⟨a, b, ha, hb, hf⟩ := h p
  exact ⟨b, a, hb, ha, by rw [hf, add_comm]⟩

theorem finalValues_sum {n : Nat} {hit : List (List Bool)} {V0 V1 S : List Bool → List Field128}
    (l0 : ∀ p ∈ hit, (V0 p).length = n + 1) (l1 : ∀ p ∈ hit, (V1 p).length = n + 1)
    (hs : ∀ p ∈ hit, Spec.addShares (V0 p) (V1 p) = S p) (hne : ∀ p ∈ hit, (S p)[n]? ≠ some 0) :
    finalValues n (hit.map fun p => ⟨p, V0 p⟩) (hit.map fun p => ⟨p, V1 p⟩) = .ok (hit.map fun p => ⟨p, S p⟩) := by
  unfold finalValues
  have e1 : assertE ((hit.map fun p => (⟨p, V0 p⟩ : HHResult)).length == (hit.map fun p => (⟨p, V1 p⟩ : HHResult)).length)
      = .ok () := by simp [assertE]
  rw [e1, ok_bind]
  have e2 : (hit.map fun p => (⟨p, V0 p⟩ : HHResult)).zip (hit.map fun p => (⟨p, V1 p⟩ : HHResult))
      = hit.map fun p => ((⟨p, V0 p⟩ : HHResult), (⟨p, V1 p⟩ : HHResult)) := by
    rw [List.zip_map', ]
  rw [e2, mapE_map, mapE_ok_of_forall (g := fun p => ((⟨p, S p⟩ : HHResult), true)), ok_bind]
  · congr 1
    rw [List.filter_eq_self.2]
    · rw [List.map_map]; rfl
    · intro x hx
      obtain ⟨p, -, rfl⟩ := List.mem_map.1 hx
      rfl
  · intro p hp
    have e3 : vecAdd (vecAdd (List.replicate (n + 1) 0) (V0 p)) (V1 p) = S p := by
      rw [← hs p hp, ← addShares_eq (a := vecAdd (List.replicate (n + 1) 0) (V0 p)) (by simp [l1 p hp]),
        ← addShares_eq (by simp [l0 p hp]), addShares_comm (List.replicate _ _), addShares_zero (l0 p hp)]
    have hl : n < (S p).length := by
      rw [← hs p hp, addShares_length (l0 p hp) (l1 p hp)]; omega
    have e4 : assertE (p == p) = .ok () := by simp [assertE]
    simp only [e4, ok_bind, e3]
    rw [idx_eq_ok_of_lt hl, ok_bind]
    congr 2
    refine decide_eq_true fun h => hne p hp ?_
    rw [List.getElem?_eq_getElem hl, h]

theorem printed_all {n : Nat} {hit : List (List Bool)} {S : List Bool → List Field128} (hn : 1 ≤ n)
    (hl : ∀ p ∈ hit, (S p).length = n + 1) :
    printed n (hit.map fun p => ⟨p, S p⟩)
      = .ok ((hit.filter fun p => (S p)[n - 1]? ≠ some 0).map fun p => ⟨p, S p⟩) := by
  unfold printed
  rw [mapE_map, mapE_ok_of_forall (g := fun p => ((⟨p, S p⟩ : HHResult), decide ((S p)[n - 1]? ≠ some 0))), ok_bind]
  · congr 1
    rw [List.filter_map, List.map_map]
    rfl
  · intro p hp
    rw [if_neg (by omega)]
    have hl : n - 1 < (S p).length := by rw [hl p hp]; omega
    simp only
    rw [idx_eq_ok_of_lt hl, ok_bind]
    congr 2
    rw [decide_eq_decide, List.getElem?_eq_getElem hl]
    simp

/-- Only the aggregates of extensions of the given prefixes are answered. -/
theorem forgeReplies_congr {num b d : Nat} {paths : Nat → List (List Bool)} {ver : List (List Field128)}
    {A B : List Bool → List Field128} {rs : Nat → List (Block × Nat)} {pf : List Block} {sh : List HHResult}
    (h : ∀ m ≤ d - 1, ∀ p ∈ kids (paths m), A p = B p) :
    forgeReplies num b d paths ver A rs pf sh = forgeReplies num b d paths ver B rs pf sh := by
  unfold forgeReplies
  have e1 : ∀ m ≤ d - 1, (kids (paths m)).map A = (kids (paths m)).map B := fun m hm => List.map_congr_left (h m hm)
  rw [e1 (d - 1) (by omega)]
  congr 2
  rw [List.flatMap_def, List.flatMap_def]
  congr 1
  refine List.map_congr_left fun m hm => ?_
  rw [e1 m (by have := List.mem_range.1 hm; omega)]

/-- Zero outside the tree. -/
def clip (n d : Nat) (A : List Bool → List Field128) (p : List Bool) : List Field128 :=
  if p ≠ [] ∧ p.length ≤ d then A p else List.replicate (n + 1) 0

theorem clip_eq {n d : Nat} {A : List Bool → List Field128} {T : Nat} {strings : List (Option (List Bool))} :
    ∀ m ≤ d - 1, 1 ≤ d → ∀ p ∈ kids (Spec.heavyAt T strings m), A p = clip n d A p := by
  intro m hm hd p hp
  rw [clip, if_pos ⟨kids_ne p hp, by rw [kids_len heavyAt_length p hp]; omega⟩]

/-- The counters that are answered: for the wanted prefixes they come to `T`, for the others to zero. -/
def forgedCounters (n d T : Nat) (hit strings : List (List Bool)) (A : List Bool → List Field128) (p : List Bool) :
    List Field128 :=
  (clip n d A p).modify n (· + ((if decide (1 ≤ Spec.countOf (hit.map some) p) then (T : Field128) else 0)
    - ((if p ≠ [] ∧ p.length ≤ d then Spec.holding strings p else 0 : Nat) : Field128)))

/-- A server that answers according to a plan: it wants the strings `hit` in the result, with `extra` on top of the true
totals.  It uses its own state and the clients' strings. -/
def forger (P : Prims) (cfg : Config) (d : Nat) (strings hit : List (List Bool)) (extra : List Bool → List Field128)
    (own : KeyCollection P) : List Req → Resp :=
  reciter (forgeReplies strings.length cfg.queryBatch d (Spec.heavyAt 1 (hit.map some))
    (own.reportShares.filterMap fun r => Spec.verifierOf P cfg.histBuckets own.serverId own.verifyKey r.2)
    (forgedCounters cfg.histBuckets d (max 1 cfg.threshold) hit strings (aggAt P cfg.histBuckets own.reportShares))
    (fun m => match merkleRoots P (Spec.digests P cfg.histBuckets (decide (own.serverId = 0))
        (Spec.heavyAt 1 (hit.map some) m) own.reportShares) 1 [] false with
      | .ok rs => rs
      | .error _ => [])
    (lastProofs P cfg.histBuckets own.reportShares (Spec.heavyAt 1 (hit.map some) (d - 1)))
    (hit.map fun p => ⟨p, Spec.addShares (aggAt P cfg.histBuckets own.reportShares p) (extra p)⟩))

/-- One side of the matter: the server `kc` runs the code, the other one has `own`. -/
theorem forge_core {n d : Nat} (b : Bool) {bld : Build} {cfg : Config} {own kc : KeyCollection P}
    {strings hit : List (List Bool)} {extra : List Bool → List Field128} {S : List Bool → List Field128}
    (hdb : cfg.dataBits = some d) (hd2 : 2 ≤ d) (hb : 1 ≤ cfg.queryBatch) (hn : cfg.histBuckets = n) (hn1 : 1 ≤ n)
    (hT : cfg.threshold < 2 ^ 64) (hit1 : hit.Sublist (Spec.allPaths d)) (hit2 : hit ≠ [])
    {sL sH : List ReportShare} {vL vH : List (List Field128)} {rs : Nat → List (Block × Nat)}
    (oR : own.reportShares = sL.map fun s => (true, s)) (kR : kc.reportShares = sH.map fun s => (true, s))
    (lL : sL.length = strings.length) (lH : sH.length = strings.length)
    (kn : kc.inputLen = n) (kd : kc.depth = some d) (kk : KeysReach (d - 1) kc.reportShares)
    (oV : sL.map (Spec.verifierOf P n own.serverId own.verifyKey) = vL.map some)
    (kV : sH.map (Spec.verifierOf P n kc.serverId kc.verifyKey) = vH.map some)
    (hdec : ∀ (i : Nat) (v w : List Field128), vL[i]? = some v → vH[i]? = some w →
      P.flpDecide n (Spec.addShares v w) = some true)
    (oRoots : ∀ m < d - 1, merkleRoots P (Spec.digests P n (decide (own.serverId = 0))
      (Spec.heavyAt 1 (hit.map some) m) own.reportShares) 1 [] false = .ok (rs m))
    (kRoots : ∀ m < d - 1, merkleRoots P (Spec.digests P n (decide (kc.serverId = 0))
      (Spec.heavyAt 1 (hit.map some) m) kc.reportShares) 1 [] false = .ok (rs m))
    (hpf : lastProofs P n own.reportShares (Spec.heavyAt 1 (hit.map some) (d - 1))
      = lastProofs P n kc.reportShares (Spec.heavyAt 1 (hit.map some) (d - 1)))
    (aL : ∀ p, p ≠ [] → p.length ≤ d → (aggAt P n own.reportShares p).length = n + 1)
    (aH : ∀ p, p ≠ [] → p.length ≤ d → (aggAt P n kc.reportShares p).length = n + 1)
    (hsum : ∀ p, p ≠ [] → p.length ≤ d → Spec.addShares (aggAt P n own.reportShares p) (aggAt P n kc.reportShares p) = S p)
    (hcnt : ∀ p, p ≠ [] → p.length ≤ d → (S p)[n]? = some ((Spec.holding strings p : Nat) : Field128))
    (hx : ∀ p ∈ hit, (extra p).length = n + 1)
    (hx0 : ∀ p ∈ hit, (extra p)[n]? ≠ some (-((Spec.holding strings p : Nat) : Field128))) :
    Spec.against b c (forger P cfg d strings hit extra own) (whhP P bld cfg strings.length) (.running kc) []
      = (forgeScript strings.length cfg.queryBatch d (Spec.heavyAt 1 (hit.map some))
          (fun q => decide (1 ≤ Spec.countOf (hit.map some) q)),
        some (Spec.endsWith n (hit.map fun p => (p, Spec.addShares (S p) (extra p))))) := by
  have hT1 : 1 ≤ max 1 cfg.threshold := by omega
  have hT2 : max 1 cfg.threshold < 2 ^ 64 := by omega
  have ne_of : ∀ p ∈ hit, p ≠ [] ∧ p.length ≤ d := by
    intro p hp
    have hl : p.length = d := mem_allPaths.1 (hit1.subset hp)
    refine ⟨?_, hl.le⟩
    rintro rfl
    simp at hl
    omega
  have e0 : own.reportShares.filterMap (fun r => Spec.verifierOf P n own.serverId own.verifyKey r.2) = vL := by
    rw [oR, List.filterMap_map]
    have : sL.filterMap (Spec.verifierOf P n own.serverId own.verifyKey) = (vL.map some).filterMap id := by
      rw [← oV, List.filterMap_map]; rfl
    rw [List.filterMap_map] at this
    exact this.trans List.filterMap_some
  have lv : vL.length = strings.length := by
    have := congrArg List.length oV
    simpa [lL] using this.symm
  have lw : vH.length = strings.length := by
    have := congrArg List.length kV
    simpa [lH] using this.symm
  have hcl : ∀ p, ∃ x y, (clip n d (aggAt P n own.reportShares) p)[n]? = some x ∧
      (clip n d (aggAt P n kc.reportShares) p)[n]? = some y ∧
      x + y = ((if p ≠ [] ∧ p.length ≤ d then Spec.holding strings p else 0 : Nat) : Field128) := by
    intro p
    by_cases hp : p ≠ [] ∧ p.length ≤ d
    · have g0 := aL p hp.1 hp.2
      have g1 := aH p hp.1 hp.2
      have h0 : n < (aggAt P n own.reportShares p).length := by omega
      have h1 : n < (aggAt P n kc.reportShares p).length := by omega
      refine ⟨_, _, by rw [clip, if_pos hp]; exact List.getElem?_eq_getElem h0,
        by rw [clip, if_pos hp]; exact List.getElem?_eq_getElem h1, ?_⟩
      have := addShares_getElem? (List.getElem?_eq_getElem h0) (List.getElem?_eq_getElem h1)
      rw [hsum p hp.1 hp.2, hcnt p hp.1 hp.2] at this
      rw [if_pos hp]
      exact (Option.some.inj this).symm
    · refine ⟨0, 0, ?_, ?_, by rw [if_neg hp]; simp⟩ <;> rw [clip, if_neg hp] <;> simp
  have hD : Decided n (max 1 cfg.threshold)
      (forgedCounters n d (max 1 cfg.threshold) hit strings (aggAt P n own.reportShares))
      (clip n d (aggAt P n kc.reportShares)) (fun q => decide (1 ≤ Spec.countOf (hit.map some) q)) :=
    decided_forged _ hcl hT1 hT2
  have lS : ∀ p ∈ hit, (S p).length = n + 1 := by
    intro p hp
    obtain ⟨h1, h2⟩ := ne_of p hp
    rw [← hsum p h1 h2, addShares_length (aL p h1 h2) (aH p h1 h2)]
  have lR : ∀ p ∈ hit, (Spec.addShares (S p) (extra p)).length = n + 1 := fun p hp => addShares_length (lS p hp) (hx p hp)
  have hR0 : ∀ p ∈ hit, (Spec.addShares (S p) (extra p))[n]? ≠ some 0 := by
    intro p hp h
    obtain ⟨h1, h2⟩ := ne_of p hp
    have hlt : n < (extra p).length := by rw [hx p hp]; omega
    have := addShares_getElem? (hcnt p h1 h2) (List.getElem?_eq_getElem hlt)
    rw [h] at this
    refine hx0 p hp ?_
    rw [List.getElem?_eq_getElem hlt, eq_neg_of_add_eq_zero_right (Option.some.inj this).symm]
  have l1 : ∀ p ∈ hit, (Spec.addShares (aggAt P n own.reportShares p) (extra p)).length = n + 1 := fun p hp =>
    addShares_length (aL p (ne_of p hp).1 (ne_of p hp).2) (hx p hp)
  have l2 : ∀ p ∈ hit, (aggAt P n kc.reportShares p).length = n + 1 := fun p hp => aH p (ne_of p hp).1 (ne_of p hp).2
  have hs : ∀ p ∈ hit, Spec.addShares (Spec.addShares (aggAt P n own.reportShares p) (extra p)) (aggAt P n kc.reportShares p)
      = Spec.addShares (S p) (extra p) := by
    intro p hp
    obtain ⟨h1, h2⟩ := ne_of p hp
    rw [← hsum p h1 h2, addShares_eq (by rw [l1 p hp, l2 p hp]), addShares_eq (by rw [aL p h1 h2, hx p hp]),
      addShares_eq (a := Spec.addShares _ _) (by rw [hsum p h1 h2, lS p hp, hx p hp]),
      addShares_eq (by rw [aL p h1 h2, aH p h1 h2]), vecAdd_right_comm]
  have hpr : printed n (hit.map fun p => ⟨p, Spec.addShares (S p) (extra p)⟩)
      = .ok ((hit.filter fun p => (Spec.addShares (S p) (extra p))[n - 1]? ≠ some 0).map
        fun p => ⟨p, Spec.addShares (S p) (extra p)⟩) := printed_all hn1 lR
  have hend : Spec.endsWith n (hit.map fun p => (p, Spec.addShares (S p) (extra p)))
      = .whh (hit.map fun p => ⟨p, Spec.addShares (S p) (extra p)⟩)
        ((hit.filter fun p => (Spec.addShares (S p) (extra p))[n - 1]? ≠ some 0).map
          fun p => ⟨p, Spec.addShares (S p) (extra p)⟩) := by
    rw [Spec.endsWith, List.map_map, List.filter_map, List.map_map]
    rfl
  obtain ⟨kc', hserved⟩ := served_forge (c := c) (b := cfg.queryBatch) (strings := hit.map some) (rs := rs) hb (by omega)
    kR kn kd kk kV fun m hm => ⟨heavyAt_hit_ne (by omega) hit1 hit2, kRoots m hm⟩
  rw [forgeReplies_congr (B := clip n d (aggAt P n kc.reportShares)) (fun m hm => clip_eq m hm (by omega)),
    heavyAt_full (by omega) hit1, lH] at hserved
  have hforger : forger P cfg d strings hit extra own = reciter (forgeReplies strings.length cfg.queryBatch d
      (Spec.heavyAt 1 (hit.map some)) vL
      (forgedCounters n d (max 1 cfg.threshold) hit strings (aggAt P n own.reportShares)) rs
      (lastProofs P n kc.reportShares (Spec.heavyAt 1 (hit.map some) (d - 1)))
      (hit.map fun p => ⟨p, Spec.addShares (aggAt P n own.reportShares p) (extra p)⟩)) := by
    rw [forger, hn, e0, hpf]
    congr 1
    unfold forgeReplies
    congr 2
    rw [List.flatMap_def, List.flatMap_def]
    congr 1
    refine List.map_congr_left fun m hm => ?_
    simp only [oRoots m (List.mem_range.1 hm)]
  rw [hforger, hend]
  have recv : ∀ (x : Bool) (l : List Req), Spec.received x (Spec.toBoth l) = l := by
    intro x l
    unfold Spec.received Spec.toBoth
    rw [List.map_map]
    cases x <;> exact List.map_id _
  subst hn
  cases b with
  | false =>
    have hp := plays_whh (P := P) (bld := bld) lv lw (by
      rintro ⟨v, w⟩ hvw
      obtain ⟨i, hi⟩ := List.mem_iff_getElem?.1 hvw
      rw [List.getElem?_zip_eq_some] at hi
      have := hdec i v w hi.1 hi.2
      rw [Spec.addShares] at this
      rw [decideShares, this]
      rfl) hb hdb hd2 hD (Spec.heavyAt 1 (hit.map some)) rs
      (lastProofs P cfg.histBuckets kc.reportShares (Spec.heavyAt 1 (hit.map some) (d - 1)))
      (finalValues_sum l1 l2 hs hR0) hpr
    have := against_reciter (c := c) (b := false) hp (by rw [recv]; exact hserved)
    rw [recv] at this
    exact this
  | true =>
    have hp := plays_whh (P := P) (bld := bld) lw lv (by
      rintro ⟨v, w⟩ hvw
      obtain ⟨i, hi⟩ := List.mem_iff_getElem?.1 hvw
      rw [List.getElem?_zip_eq_some] at hi
      have := hdec i w v hi.2 hi.1
      rw [addShares_comm, Spec.addShares] at this
      rw [decideShares, this]
      rfl) hb hdb hd2 hD.symm (Spec.heavyAt 1 (hit.map some)) rs
      (lastProofs P cfg.histBuckets kc.reportShares (Spec.heavyAt 1 (hit.map some) (d - 1)))
      (finalValues_sum l2 l1 (fun p hp => by rw [addShares_comm]; exact hs p hp) hR0) hpr
    have := against_reciter (c := c) (b := true) hp (by rw [recv]; exact hserved)
    rw [recv] at this
    exact this

/-- The digests and proofs of honest clients agree whatever the prefixes are. -/
theorem quiet_paths {n d : Nat} {id0 id1 : Int} {vk : Block} {clients : List (List Bool × Nat)}
    {s0 s1 : List ReportShare} (hd : 1 ≤ d) (hne : clients ≠ [])
    (hp : Spec.Population P n d id0 id1 vk (clients.map some) (s0.map fun s => (true, s)) (s1.map fun s => (true, s)))
    (paths : Nat → List (List Bool)) (hnd : ∀ m, (paths m).Nodup) (hlen : ∀ m, ∀ p ∈ paths m, p.length = m) :
    (∃ rs : Nat → List (Block × Nat), ∀ m < d - 1,
      merkleRoots P (Spec.digests P n true (paths m) (s0.map fun s => (true, s))) 1 [] false = .ok (rs m) ∧
      merkleRoots P (Spec.digests P n false (paths m) (s1.map fun s => (true, s))) 1 [] false = .ok (rs m)) ∧
    lastProofs P n (s0.map fun s => (true, s)) (paths (d - 1)) = lastProofs P n (s1.map fun s => (true, s)) (paths (d - 1)) ∧
    1 ≤ n := by
  have hM := mixed_of_population hp
  have hrep : (clients.map some).map Option.isSome = List.replicate clients.length true := by
    rw [List.map_map, List.eq_replicate_iff]; simp
  have l0 : s0.length = clients.length := by simpa using hp.1
  have l1 : s1.length = clients.length := by simpa using hp.2.1
  rw [hrep, masked_all (by simpa using l0), masked_all (by simpa using l1)] at hM
  have hid : (clients.map some).filterMap id = clients := by simp [List.filterMap_map]
  have hinc := included_ne hM (by rw [hid]; exact hne)
  obtain ⟨hq, hw0, hw1, hF⟩ := hM.facts
  have r0 := wellFormed_reach hd hw0
  have hroot : ∀ m, ∃ rs, merkleRoots P (Spec.digests P n true (paths m)
      (s0.map fun s => (true, s))) 1 [] false = .ok rs := fun m =>
    ⟨_, (merkleRoots_one (digests_ne r0 hinc) [] false).choose_spec⟩
  choose rs hrs using hroot
  refine ⟨⟨rs, fun m hm => ⟨hrs m, ?_⟩⟩, proofs_quiet hq (hnd _) fun p hp => by rw [hlen _ p hp]; omega, ?_⟩
  · rw [← digests_quiet (d := d) (r0 := s0.map fun s => (true, s)) (m := m)
      ⟨hq.1, fun i a b x y => by obtain ⟨k0, k1, e0, e1, q⟩ := hq.2 i a b x y; exact ⟨k0, k1, e0, e1, q.1⟩⟩
      (by omega) (hnd m) (hlen m)]
    exact hrs m
  · obtain ⟨c, hc⟩ := List.exists_mem_of_ne_nil _ hne
    have := (hM.lengths.2.2 c (by rw [hid]; exact hc)).2
    omega

/-- Honest reports as a population. -/
theorem population_of_honest {n d : Nat} {id0 id1 : Int} {vk : Block} {clients : List (List Bool × Nat)}
    {r0 r1 : List (Bool × ReportShare)} (hh : Spec.HonestReports P n clients r0 r1) (hc : Spec.FlpCompleteFor P n vk r0)
    (hf0 : ∀ r ∈ r0, r.1 = true) (hf1 : ∀ r ∈ r1, r.1 = true) (hl : ∀ c ∈ clients, c.1.length = d) :
    Spec.Population P n d id0 id1 vk (clients.map some) r0 r1 := by
  refine ⟨by simpa using hh.1, by simpa using hh.2.1, ?_⟩
  intro i c b0 b1 s0 s1 hi g0 g1
  rw [List.getElem?_map, Option.map_eq_some_iff] at hi
  obtain ⟨c, hi, rfl⟩ := hi
  exact ⟨hf0 _ (List.mem_of_getElem? g0), hf1 _ (List.mem_of_getElem? g1), hh.2.2 i c _ _ hi g0 g1,
    hl c (List.mem_of_getElem? hi), hc _ (List.mem_of_getElem? g0)⟩

theorem all_true_map {rs : List (Bool × ReportShare)} (h : ∀ r ∈ rs, r.1 = true) :
    rs = (rs.map Prod.snd).map fun s => (true, s) := by
  rw [List.map_map]
  conv_lhs => rw [← List.map_id rs]
  refine List.map_congr_left fun r hr => ?_
  obtain ⟨b, s⟩ := r
  have : b = true := h _ hr
  rw [this]
  rfl

/-- **The claim is false: a server can make up the result of weighted heavy hitters.**  It chooses any non-empty set `hit` of
strings of the full length, and for each of them a vector `extra`.  Then it has answers, made of its own state and of the
clients' strings (which its own shares tell, C07), with which the driver ends with exactly the strings `hit`, in order, each
with its true totals plus `extra`.  The clients' strings, the threshold, and whether anybody holds a string of `hit` do not
matter; the driver does not panic, and the other server runs the code. -/
theorem C102_false {n d : Nat} (b : Bool) {bld : Build} {cfg : Config} (own : KeyCollection P)
    (strings hit : List (List Bool)) (extra : List Bool → List Field128)
    (hdb : cfg.dataBits = some d) (hd2 : 2 ≤ d) (hb : 1 ≤ cfg.queryBatch) (hn : cfg.histBuckets = n)
    (hT : cfg.threshold < 2 ^ 64) (hit1 : hit.Sublist (Spec.allPaths d)) (hit2 : hit ≠ [])
    (hx : ∀ p ∈ hit, (extra p).length = n + 1)
    (hx0 : ∀ p ∈ hit, (extra p)[n]? ≠ some (-((Spec.holding strings p : Nat) : Field128))) :
    ∃ lie : List Req → Resp, ∀ (kcs : Pair2 P) (clients : List (List Bool × Nat)), Pair.get kcs b = own →
      clients.map Prod.fst = strings → clients ≠ [] → kcs.1.inputLen = n → kcs.2.inputLen = n →
      kcs.1.serverId = 0 → kcs.2.serverId ≠ 0 → kcs.1.verifyKey = kcs.2.verifyKey →
      kcs.1.depth = some d → kcs.2.depth = some d →
      Spec.HonestReports P n clients kcs.1.reportShares kcs.2.reportShares →
      Spec.FlpCompleteFor P n kcs.1.verifyKey kcs.1.reportShares →
      (∀ r ∈ kcs.1.reportShares, r.1 = true) → (∀ r ∈ kcs.2.reportShares, r.1 = true) →
      (∀ c ∈ clients, c.1.length = d) →
      (Spec.against b (Pair.get (c0, c1) !b) lie (whhP P bld cfg clients.length) (.running (Pair.get kcs !b)) []).2
      = some (Spec.endsWith n (hit.map fun p => (p, Spec.addShares
          (Spec.histogram n ((Spec.holders clients p).map Prod.snd) ++ [((Spec.holders clients p).length : Field128)])
          (extra p)))) := by
  refine ⟨forger P cfg d strings hit extra own, ?_⟩
  intro kcs clients hown hstr hne hn0 hn1 h0 h1 hvk d0 d1 hh hc hf0 hf1 hl
  have hpop : Spec.Population P n d kcs.1.serverId kcs.2.serverId kcs.1.verifyKey (clients.map some) kcs.1.reportShares
      kcs.2.reportShares := population_of_honest hh hc hf0 hf1 hl
  obtain ⟨s0, e0⟩ : ∃ s, s = kcs.1.reportShares.map Prod.snd := ⟨_, rfl⟩
  obtain ⟨s1, e1⟩ : ∃ s, s = kcs.2.reportShares.map Prod.snd := ⟨_, rfl⟩
  have R0 := all_true_map hf0
  have R1 := all_true_map hf1
  rw [← e0] at R0
  rw [← e1] at R1
  rw [R0, R1] at hpop
  obtain ⟨ver0, ver1, _, W⟩ := world_of_population (T := 1) h0 h1 (by omega) hne hpop
  obtain ⟨⟨rs, hroots⟩, hpf, hnpos⟩ := quiet_paths (by omega) hne hpop (Spec.heavyAt 1 (hit.map some))
    (fun m => (allPaths_nodup m).filter _) (fun m => heavyAt_length)
  have l0 : s0.length = strings.length := by rw [e0, ← hstr]; simpa using hh.1
  have l1 : s1.length = strings.length := by rw [e1, ← hstr]; simpa using hh.2.1
  have hnum : clients.length = strings.length := by rw [← hstr]; simp
  have hdec : ∀ (i : Nat) (v w : List Field128), ver0[i]? = some v → ver1[i]? = some w →
      P.flpDecide n (Spec.addShares v w) = some true := by
    intro i v w hv hw
    have a0 := congrArg (fun l => l[i]?) W.ver0
    have a1 := congrArg (fun l => l[i]?) W.ver1
    simp only [List.getElem?_map, hv, hw, Option.map_some, Option.map_eq_some_iff] at a0 a1
    obtain ⟨x, hx, a0⟩ := a0
    obtain ⟨y, hy, a1⟩ := a1
    have hi : i < clients.length := by
      rw [hnum, ← l0]; exact (List.getElem?_eq_some_iff.1 hx).1
    obtain ⟨-, -, g1, g2, g3⟩ := hpop.2.2 i (some clients[i]) true true x y
      (by rw [List.getElem?_map, List.getElem?_eq_getElem hi]; rfl) (by rw [List.getElem?_map, hx]; rfl)
      (by rw [List.getElem?_map, hy]; rfl)
    obtain ⟨v0, v1, q0, q1, qd⟩ := honest_verifiers h0 h1 (by rintro e; rw [e] at g2; simp at g2; omega) g1 g3
    rw [a0] at q0
    rw [a1] at q1
    rw [Option.some.inj q0, Option.some.inj q1]
    exact qd
  have hhold : ∀ p, (Spec.holders clients p).length = Spec.holding strings p := by
    intro p
    rw [Spec.holders, Spec.holding, ← hstr, List.countP_map, List.countP_eq_length_filter]
    rfl
  have hcnt : ∀ p, p ≠ [] → p.length ≤ d → (Spec.histogram n ((Spec.holders clients p).map Prod.snd)
      ++ [((Spec.holders clients p).length : Field128)])[n]? = some ((Spec.holding strings p : Nat) : Field128) := by
    intro p _ _
    rw [hhold, List.getElem?_append_right (by simp [Spec.histogram])]
    simp [Spec.histogram]
  have i0 : decide (kcs.1.serverId = 0) = true := decide_eq_true h0
  have i1 : decide (kcs.2.serverId = 0) = false := decide_eq_false h1
  rw [hnum]
  cases b with
  | false =>
    subst hown
    have := forge_core (P := P) (c := c1) (own := kcs.1) (kc := kcs.2) (strings := strings) (extra := extra)
      (S := fun p => Spec.histogram n ((Spec.holders clients p).map Prod.snd)
        ++ [((Spec.holders clients p).length : Field128)]) false (bld := bld) hdb hd2 hb hn hnpos hT hit1 hit2 R0 R1 l0 l1
      hn1 d1 (R1 ▸ W.reach1) W.ver0 (hvk ▸ W.ver1) hdec (fun m hm => by rw [i0, R0]; exact (hroots m hm).1)
      (fun m hm => by rw [i1, R1]; exact (hroots m hm).2) (by rw [R0, R1]; exact hpf) (R0 ▸ W.len0) (R1 ▸ W.len1)
      (by rw [R0, R1]; exact W.sums) hcnt hx hx0
    exact congrArg Prod.snd this
  | true =>
    subst hown
    have := forge_core (P := P) (c := c0) (own := kcs.2) (kc := kcs.1) (strings := strings) (extra := extra)
      (S := fun p => Spec.histogram n ((Spec.holders clients p).map Prod.snd)
        ++ [((Spec.holders clients p).length : Field128)]) true (bld := bld) hdb hd2 hb hn hnpos hT hit1 hit2 R1 R0 l1 l0
      hn0 d0 (R0 ▸ W.reach0) (hvk ▸ W.ver1) W.ver0 (fun i v w hv hw => by rw [addShares_comm]; exact hdec i w v hw hv)
      (fun m hm => by rw [i1, R1]; exact (hroots m hm).2) (fun m hm => by rw [i0, R0]; exact (hroots m hm).1)
      (by rw [R0, R1]; exact hpf.symm) (R1 ▸ W.len1) (R0 ▸ W.len0)
      (by rw [R0, R1]; exact fun p hp hl => by rw [addShares_comm]; exact W.sums p hp hl) hcnt hx hx0
    exact congrArg Prod.snd this

/-- A server that also knows the weights makes the driver end with any list it likes: any strings in order, each with any
values that do not claim zero clients. -/
theorem C102_false_any {n d : Nat} (b : Bool) {bld : Build} {cfg : Config} {kcs : Pair2 P}
    {clients : List (List Bool × Nat)} (want : List (List Bool × List Field128))
    (hdb : cfg.dataBits = some d) (hd2 : 2 ≤ d) (hb : 1 ≤ cfg.queryBatch) (hn : cfg.histBuckets = n)
    (hT : cfg.threshold < 2 ^ 64) (hne : clients ≠ []) (hn0 : kcs.1.inputLen = n) (hn1 : kcs.2.inputLen = n)
    (h0 : kcs.1.serverId = 0) (h1 : kcs.2.serverId ≠ 0) (hvk : kcs.1.verifyKey = kcs.2.verifyKey)
    (d0 : kcs.1.depth = some d) (d1 : kcs.2.depth = some d)
    (hh : Spec.HonestReports P n clients kcs.1.reportShares kcs.2.reportShares)
    (hc : Spec.FlpCompleteFor P n kcs.1.verifyKey kcs.1.reportShares)
    (hf0 : ∀ r ∈ kcs.1.reportShares, r.1 = true) (hf1 : ∀ r ∈ kcs.2.reportShares, r.1 = true)
    (hl : ∀ c ∈ clients, c.1.length = d)
    (w1 : (want.map Prod.fst).Sublist (Spec.allPaths d)) (w2 : want ≠ [])
    (w3 : ∀ e ∈ want, e.2.length = n + 1 ∧ e.2[n]? ≠ some 0) :
    ∃ lie : List Req → Resp,
      (Spec.against b (Pair.get (c0, c1) !b) lie (whhP P bld cfg clients.length) (.running (Pair.get kcs !b)) []).2
      = some (Spec.endsWith n want) := by
  have hnd : (want.map Prod.fst).Nodup := (allPaths_nodup d).sublist w1
  let total : List Bool → List Field128 := fun p =>
    Spec.histogram n ((Spec.holders clients p).map Prod.snd) ++ [((Spec.holders clients p).length : Field128)]
  have lt : ∀ p, (total p).length = n + 1 := fun p => by simp [total, Spec.histogram]
  let value : List Bool → List Field128 := fun p => ((want.find? fun e => e.1 == p).map Prod.snd).getD []
  have hvalue : ∀ e ∈ want, value e.1 = e.2 := by
    intro e he
    have : want.find? (fun x => x.1 == e.1) = some e := by
      cases hfnd : want.find? (fun x => x.1 == e.1) with
      | none => exact absurd (List.find?_eq_none.1 hfnd e he) (by simp)
      | some x =>
        have hx := List.mem_of_find?_eq_some hfnd
        have hxe : x.1 = e.1 := by simpa using List.find?_some hfnd
        rw [List.inj_on_of_nodup_map hnd hx he hxe]
    simp only [value, this]
    rfl
  let extra : List Bool → List Field128 := fun p => Spec.addShares (value p) ((total p).map fun x => -x)
  have hsum : ∀ e ∈ want, Spec.addShares (total e.1) (extra e.1) = e.2 := by
    intro e he
    have le := (w3 e he).1
    simp only [extra, hvalue e he]
    refine List.ext_getElem (by simp [Spec.addShares, lt, le]) fun i g1 g2 => ?_
    simp [Spec.addShares]
  have lx : ∀ e ∈ want, (extra e.1).length = n + 1 := by
    intro e he
    simp only [extra, hvalue e he]
    simp [Spec.addShares, lt, (w3 e he).1]
  obtain ⟨lie, h⟩ := C102_false (P := P) (c0 := c0) (c1 := c1) b (bld := bld) (Pair.get kcs b) (clients.map Prod.fst)
    (want.map Prod.fst) extra hdb hd2 hb hn hT w1 (by simpa using w2)
    (fun p hp => by obtain ⟨e, he, rfl⟩ := List.mem_map.1 hp; exact lx e he)
    (fun p hp hx => by
      obtain ⟨e, he, rfl⟩ := List.mem_map.1 hp
      have hn' : (total e.1)[n]? = some ((Spec.holding (clients.map Prod.fst) e.1 : Nat) : Field128) := by
        simp only [total]
        rw [List.getElem?_append_right (by simp [Spec.histogram])]
        simp only [Spec.histogram, List.length_map, List.length_range, Nat.sub_self, List.getElem?_cons_zero]
        rw [Spec.holders, Spec.holding, List.countP_map, List.countP_eq_length_filter]
        rfl
      have := addShares_getElem? hn' hx
      rw [hsum e he, add_neg_cancel] at this
      exact (w3 e he).2 this)
  refine ⟨lie, (h kcs clients rfl rfl hne hn0 hn1 h0 h1 hvk d0 d1 hh hc hf0 hf1 hl).trans ?_⟩
  congr 2
  rw [List.map_map]
  conv_rhs => rw [← List.map_id want]
  exact List.map_congr_left fun e he => Prod.ext rfl (hsum e he)

/-- The same in attribute-based metrics, for a whole run: whatever an honest run would show, a server that adds tables to
its aggregates makes the driver show the sums, batch by batch.  It uses its own state alone, gets the same requests, and
nobody notices. -/
theorem C102_false_abm (b : Bool) {bld : Build} {cfg : Config} {draw : MainDraw} {num n : Nat} {kcs : Pair2 P}
    {sent : List (Req × Req)} {attrs : List (List Bool)} {outs : List AbmOut} {t0 t1 : Server P}
    (h : Spec.Talk c0 c1 (mainP P bld cfg (.attributeBasedMetrics num) draw n) (.running kcs.1) (.running kcs.2) sent
      (.abm attrs outs) t0 t1)
    (extra : Nat → List (List Field128)) (he : ∀ k, Spec.IsTable attrs.length cfg.histBuckets (extra k)) :
    Spec.against b (Pair.get (c0, c1) !b)
      (Spec.inflater cfg.queryBatch extra (fun _ => []) (Pair.get (c0, c1) b) (.running (Pair.get kcs b)))
      (mainP P bld cfg (.attributeBasedMetrics num) draw n) (.running (Pair.get kcs !b)) []
    = (Spec.received b sent,
      some (.abm attrs (outs.mapIdx fun k o => { o with results := Spec.plus o.results (extra k) }))) := by
  obtain ⟨⟨k0, k1⟩, rfl, rfl, -⟩ := talk_running h kcs rfl rfl
  have key : Tells c0 c1 (bendP b (Spec.inflate cfg.queryBatch extra (fun _ => []))
      (mainP P bld cfg (.attributeBasedMetrics num) draw n)) kcs sent
      (.abm attrs (outs.mapIdx fun k o => { o with results := Spec.plus o.results (extra k) })) (k0, k1) := by
    refine tells_inflatedMain h fun reports kcs sent hcol hn0 hn1 => ?_
    unfold collectP at hcol ⊢
    simp only at hcol ⊢
    obtain ⟨x1, y1, as, q1, rfl, h1, g1⟩ := tells_bind hcol
    obtain ⟨x2, y2, rs, q2, rfl, h2, g2⟩ := tells_bind g1
    obtain ⟨x3, y3, os, q3, rfl, h3, g3⟩ := tells_bind g2
    obtain ⟨rfl, rfl, e3⟩ := tells_ret g3
    cases e3
    have e1 := (tells_lift h1).2.1
    have e2 := (tells_lift h2).2.1
    subst e2
    subst e1
    have hrs := (tells_lift h2).2.2
    change stepByRanges n cfg.queryBatch = .ok rs at hrs
    unfold stepByRanges at hrs
    split at hrs
    · cases hrs
    rename_i hb
    cases hrs
    have ho := abmLoop_length h3
    rw [bendP_bind]
    refine Tells.bind (tells_bendLift h1) ?_
    rw [bendP_bind]
    refine Tells.bind (tells_bendLift h2) ?_
    rw [bendP_bind]
    refine Tells.bind (tells_inflatedAbm h3 hn0 hn1 fun r _ => he _) ?_
    rw [zipWith_ranges n (fun k o => ({ o with results := Spec.plus o.results (extra k) } : AbmOut)) outs
      (by simpa using ho) (by omega)]
    exact .ret _ _ _
  have := against_bend (cb := Pair.get (c0, c1) b) (sb := .running (Pair.get kcs b)) (got := [])
    (lie := Spec.inflater cfg.queryBatch extra (fun _ => []) (Pair.get (c0, c1) b) (.running (Pair.get kcs b)))
    (by intro got r; simp [Spec.inflater]) rfl key (by cases b <;> rfl)
  rw [List.nil_append] at this
  rw [← this]
  cases b <;> rfl

/-- And in plain metrics with libprio's Prio3: the counters that the driver shows are those of the honest run plus what the
server likes, modulo the field size. -/
theorem C102_false_plain (b : Bool) {Z : Prio3Xof} {bld : Build} {cfg : Config} {draw : MainDraw} {n : Nat}
    {kcs : Pair2 (P.withPrio3 Z)} {sent : List (Req × Req)} {outs : List PmOut} {t0 t1 : Server (P.withPrio3 Z)}
    (h : Spec.Talk c0 c1 (mainP (P.withPrio3 Z) bld cfg .plainMetrics draw n) (.running kcs.1) (.running kcs.2) sent
      (.pm outs) t0 t1)
    (extra : Nat → List Field128) (he : ∀ k, (extra k).length = cfg.histBuckets) :
    Spec.against b (Pair.get (c0, c1) !b)
      (Spec.inflater cfg.queryBatch (fun _ => []) extra (Pair.get (c0, c1) b) (.running (Pair.get kcs b)))
      (mainP (P.withPrio3 Z) bld cfg .plainMetrics draw n) (.running (Pair.get kcs !b)) []
    = (Spec.received b sent,
      some (.pm (outs.mapIdx fun k o => { o with result := Spec.shifted o.result (extra k) }))) := by
  obtain ⟨⟨k0, k1⟩, rfl, rfl, -⟩ := talk_running h kcs rfl rfl
  have key : Tells c0 c1 (bendP b (Spec.inflate cfg.queryBatch (fun _ => []) extra)
      (mainP (P.withPrio3 Z) bld cfg .plainMetrics draw n)) kcs sent
      (.pm (outs.mapIdx fun k o => { o with result := Spec.shifted o.result (extra k) })) (k0, k1) := by
    refine tells_inflatedMain h fun reports kcs sent hcol hn0 hn1 => ?_
    unfold collectP at hcol ⊢
    simp only at hcol ⊢
    split at hcol
    · cases hcol
    rename_i hp
    rw [if_neg hp]
    obtain ⟨x2, y2, rs, q2, rfl, h2, g2⟩ := tells_bind hcol
    obtain ⟨x3, y3, os, q3, rfl, h3, g3⟩ := tells_bind g2
    obtain ⟨rfl, rfl, e3⟩ := tells_ret g3
    cases e3
    have e2 := (tells_lift h2).2.1
    subst e2
    have hrs := (tells_lift h2).2.2
    change stepByRanges n cfg.queryBatch = .ok rs at hrs
    unfold stepByRanges at hrs
    split at hrs
    · cases hrs
    rename_i hb
    cases hrs
    have ho := pmLoop_length h3
    rw [bendP_bind]
    refine Tells.bind (tells_bendLift h2) ?_
    rw [bendP_bind]
    refine Tells.bind (tells_inflatedPm h3 fun r _ => he _) ?_
    rw [zipWith_ranges n (fun k o => ({ o with result := Spec.shifted o.result (extra k) } : PmOut)) outs
      (by simpa using ho) (by omega)]
    exact .ret _ _ _
  have := against_bend (cb := Pair.get (c0, c1) b) (sb := .running (Pair.get kcs b)) (got := [])
    (lie := Spec.inflater cfg.queryBatch (fun _ => []) extra (Pair.get (c0, c1) b) (.running (Pair.get kcs b)))
    (by intro got r; simp [Spec.inflater]) rfl key (by cases b <;> rfl)
  rw [List.nil_append] at this
  rw [← this]
  cases b <;> rfl

/-! ### What a lying server cannot change -/

/-- Whatever a server answers, and whatever reports the other server has: if the driver comes to the end of a weighted
heavy-hitters collection, then it ends with distinct strings of the configured length in the order of the tree, with values
of the configured length and with counters that are not zero, and it prints those with a weight in the last bucket.  By
`C102_false_any` a server can bring about every such result that is not empty, so that nothing more holds. -/
theorem C102_strings_partial {n d : Nat} (b : Bool) {bld : Build} {cfg : Config} {s : Server P} (lie : List Req → Resp)
    {got : List Req} {out : Shown} (hdb : cfg.dataBits = some d) (hd : 1 ≤ d)
    (h : (Spec.against b c lie (whhP P bld cfg n) s got).2 = some out) :
    ∃ entries : List (List Bool × List Field128), out = Spec.endsWith cfg.histBuckets entries ∧
      (entries.map Prod.fst).Sublist (Spec.allPaths d) ∧
      ∀ e ∈ entries, e.2.length = cfg.histBuckets + 1 ∧ e.2[cfg.histBuckets]? ≠ some 0 := by
  obtain ⟨t, ht⟩ := faces_of_against h
  obtain ⟨rs, rfl, h1, h2⟩ := faces_whh hdb hd ht
  have hid : (fun e : List Bool × List Field128 => (⟨e.1, e.2⟩ : HHResult)) ∘ (fun r : HHResult => (r.path, r.value)) = id := rfl
  refine ⟨rs.map fun r => (r.path, r.value), ?_, ?_, ?_⟩
  · rw [Spec.endsWith, List.map_map, hid, List.map_id, List.filter_map, List.map_map, hid, List.map_id]
    rfl
  · rw [List.map_map]
    exact h1
  · intro e he
    obtain ⟨r, hr, rfl⟩ := List.mem_map.1 he
    exact h2 r hr

/-- The same for a whole run of the driver. -/
theorem C102_whole_partial {n d : Nat} (b : Bool) {bld : Build} {cfg : Config} {draw : MainDraw} {s : Server P}
    (lie : List Req → Resp) {got : List Req} {out : Shown} (hdb : cfg.dataBits = some d) (hd : 1 ≤ d)
    (h : (Spec.against b c lie (mainP P bld cfg .weightedHeavyHitters draw n) s got).2 = some out) :
    ∃ entries : List (List Bool × List Field128), out = Spec.endsWith cfg.histBuckets entries ∧
      (entries.map Prod.fst).Sublist (Spec.allPaths d) ∧
      ∀ e ∈ entries, e.2.length = cfg.histBuckets + 1 ∧ e.2[cfg.histBuckets]? ≠ some 0 := by
  obtain ⟨t, ht⟩ := faces_of_against h
  unfold mainP at ht
  obtain ⟨u1, s1, -, g⟩ := faces_bind ht
  split at g
  · cases g
  obtain ⟨reports, s2, -, g⟩ := faces_bind g
  obtain ⟨u3, s3, -, g⟩ := faces_bind g
  obtain ⟨u4, s4, -, g⟩ := faces_bind g
  obtain ⟨rs, rfl, h1, h2⟩ := faces_whh hdb hd g
  have hid : (fun e : List Bool × List Field128 => (⟨e.1, e.2⟩ : HHResult)) ∘ (fun r : HHResult => (r.path, r.value)) = id := rfl
  refine ⟨rs.map fun r => (r.path, r.value), ?_, ?_, ?_⟩
  · rw [Spec.endsWith, List.map_map, hid, List.map_id, List.filter_map, List.map_map, hid, List.map_id]
    rfl
  · rw [List.map_map]
    exact h1
  · intro e he
    obtain ⟨r, hr, rfl⟩ := List.mem_map.1 he
    exact h2 r hr

theorem faces_abmLoop_length {cfg : Config} {attrs : List (List Bool)} : ∀ {rs : List (Nat × Nat)} {s t : Server P}
    {outs : List AbmOut}, Faces b c (abmLoopP P cfg attrs rs) s t outs → outs.length = rs.length
  | [], s, t, outs, h => by
    obtain ⟨-, rfl⟩ := faces_ret h
    rfl
  | r :: rs, s, t, outs, h => by
    rw [abmLoopP] at h
    obtain ⟨o, s1, -, h⟩ := faces_bind h
    obtain ⟨os, s2, h2, h⟩ := faces_bind h
    obtain ⟨-, rfl⟩ := faces_ret h
    simp [faces_abmLoop_length h2]

/-- In attribute-based metrics the attributes that the driver shows and the number of batches are the same whatever a
server answers: they come from the driver. -/
theorem C102_attributes_partial {num n : Nat} {b b' : Bool} {c c' : ServerCfg} {bld : Build} {cfg : Config} {draw : MainDraw}
    {s s' : Server P} {lie lie' : List Req → Resp} {got got' : List Req} {out out' : Shown}
    (h : (Spec.against b c lie (mainP P bld cfg (.attributeBasedMetrics num) draw n) s got).2 = some out)
    (h' : (Spec.against b' c' lie' (mainP P bld cfg (.attributeBasedMetrics num) draw n) s' got').2 = some out') :
    ∃ attrs outs outs', out = .abm attrs outs ∧ out' = .abm attrs outs' ∧ outs.length = outs'.length := by
  have key : ∀ {b : Bool} {c : ServerCfg} {s t : Server P} {out : Shown},
      Faces b c (mainP P bld cfg (.attributeBasedMetrics num) draw n) s t out →
      ∃ reports attrs rs outs, generateReports P cfg (.attributeBasedMetrics num) draw.reports = .ok reports ∧
        mainAttributes reports draw num = .ok attrs ∧ stepByRanges n cfg.queryBatch = .ok rs ∧ out = .abm attrs outs ∧
        outs.length = rs.length := by
    intro b c s t out ht
    unfold mainP at ht
    obtain ⟨u1, s1, -, g⟩ := faces_bind ht
    split at g
    · cases g
    obtain ⟨reports, s2, g2, g⟩ := faces_bind g
    obtain ⟨u3, s3, -, g⟩ := faces_bind g
    obtain ⟨u4, s4, -, g⟩ := faces_bind g
    unfold collectP at g
    simp only at g
    obtain ⟨attrs, s5, g5, g⟩ := faces_bind g
    obtain ⟨rs, s6, g6, g⟩ := faces_bind g
    obtain ⟨outs, s7, g7, g⟩ := faces_bind g
    obtain ⟨-, rfl⟩ := faces_ret g
    exact ⟨reports, attrs, rs, outs, (faces_lift g2).2, (faces_lift g5).2, (faces_lift g6).2, rfl, faces_abmLoop_length g7⟩
  obtain ⟨t, ht⟩ := faces_of_against h
  obtain ⟨t', ht'⟩ := faces_of_against h'
  obtain ⟨r, a, rs, os, e1, e2, e3, rfl, e4⟩ := key ht
  obtain ⟨r', a', rs', os', f1, f2, f3, rfl, f4⟩ := key ht'
  obtain rfl := Except.ok.inj (e1.symm.trans f1)
  obtain rfl := Except.ok.inj (e2.symm.trans f2)
  obtain rfl := Except.ok.inj (e3.symm.trans f3)
  exact ⟨a, os, os', rfl, rfl, e4.trans f4.symm⟩

/-! ### Concrete cases -/

/-- Two clients hold 100 and one holds 110.  The first server makes the driver end with 011 and 110 and weights that no
client has. -/
example (b : Bool) : ∃ (kcs : Pair2 toy) (lie : List Req → Resp),
    Spec.HonestReports toy 2 [([true, false, false], 0), ([true, true, false], 1), ([true, false, false], 1)]
      kcs.1.reportShares kcs.2.reportShares ∧
    (Spec.against b (Pair.get (toyCfg 0 (some 3) .debug, toyCfg 1 (some 3) .debug) !b) lie
      (whhP toy .debug ⟨some 3, 2, 2, 2, 1, 2⟩ 3) (.running (Pair.get kcs !b)) []).2
    = some (.whh [⟨[false, true, true], [5, 7, 9]⟩, ⟨[true, true, false], [0, 0, 1]⟩] [⟨[false, true, true], [5, 7, 9]⟩]) := by
  obtain ⟨kcs, h1, h2, h3, h4, h5, h6, h7, h8, h9, h10⟩ :=
    toy_honest 2 3 [([true, false, false], 0), ([true, true, false], 1), ([true, false, false], 1)] (by decide)
  obtain ⟨lie, h⟩ := C102_false_any (c0 := toyCfg 0 (some 3) .debug) (c1 := toyCfg 1 (some 3) .debug) b (bld := .debug)
    (cfg := ⟨some 3, 2, 2, 2, 1, 2⟩) (d := 3) [([false, true, true], [5, 7, 9]), ([true, true, false], [0, 0, 1])]
    rfl (by decide) (by decide) rfl (by decide) (by decide) h1 h2 h3 (by rw [h4]; decide) h5 h6 h7 h8
    (fun _ _ => toy_flpComplete _ _) h9 h10 (by decide) (by decide) (by decide) (by decide +kernel)
  refine ⟨kcs, lie, h8, h.trans ?_⟩
  rw [Spec.endsWith, List.filter_cons_of_pos (by decide +kernel), List.filter_cons_of_neg (by decide +kernel)]
  rfl

/-- Three plain-metrics clients in two batches: a server that adds 10 and 20 to the counters of the first batch and takes 1
from the first counter of the second. -/
example (b : Bool) (kcs : Pair2 (toy.withPrio3 toyXof)) : ∃ got : List Req,
    Spec.against b (Pair.get (toyCfg 0 none .debug, toyCfg 1 none .release) !b)
      (Spec.inflater 2 (fun _ => []) (fun k => if k = 0 then [10, 20] else [-1, 0])
        (Pair.get (toyCfg 0 none .debug, toyCfg 1 none .release) b) (.running (Pair.get kcs b)))
      (mainP (toy.withPrio3 toyXof) .debug ⟨none, 2, 2, 2, 2, 2⟩ .plainMetrics (Spec.bucketDraw seedsDraw id) 3)
      (.running (Pair.get kcs !b)) []
    = (got, some (.pm [⟨0, [11, 21]⟩, ⟨0, [0, 0]⟩])) := by
  obtain ⟨sizes, hsz, -⟩ := uploadBatches_spec (show 1 ≤ 2 by decide) 3 3 le_rfl
  obtain ⟨sh, sent, t0, t1, h, -⟩ := run_pm (P := toy) (Z := toyXof) (c0 := toyCfg 0 none .debug)
    (c1 := toyCfg 1 none .release) (bld := .debug) (cfg := ⟨none, 2, 2, 2, 2, 2⟩) (draw := seedsDraw) (n := 3) (bucket := id)
    (sizes := sizes) kcs
    ⟨rfl, rfl, rfl, by decide, by decide, by decide, by decide, fun i _ =>
      ⟨Nat.le_add_left _ _, Nat.succ_le_of_lt (Nat.mod_lt i (by decide))⟩⟩ rfl (by norm_num)
    (fun i _ => show (3 : Field128) ^ Spec.points 2 (Spec.chunk 2) ≠ 1 by decide +kernel) rfl rfl (by decide)
    (fun _ _ => rfl) (fun i hi => hi) hsz
  rw [seeds_shown.1] at h
  refine ⟨Spec.received b sent, (C102_false_plain b h (fun k => if k = 0 then [10, 20] else [-1, 0]) fun k => by
    dsimp only
    split <;> rfl).trans ?_⟩
  have e1 : Spec.shifted [1, 1] [10, 20] = [11, 21] := by decide +kernel
  have e2 : Spec.shifted [1, 0] [-1, 0] = [0, 0] := by decide +kernel
  rw [List.mapIdx_cons, List.mapIdx_cons, List.mapIdx_nil]
  simp only [if_pos, Nat.zero_add, Nat.one_ne_zero, if_false, e1, e2]

/-- A run of attribute-based metrics in which a server adds to the histogram of the one attribute. -/
example (b : Bool) (w : Spec.RunCoins squareToy.withHistogram 2 2 2 squareDraw) (kcs : Pair2 squareToy.withHistogram) :
    (Spec.against b (Pair.get (toyCfg 0 (some 2) .debug, toyCfg 1 (some 2) .debug) !b)
        (Spec.inflater 2 (fun _ => [[10, 20]]) (fun _ => []) (Pair.get (toyCfg 0 (some 2) .debug, toyCfg 1 (some 2) .debug) b)
          (.running (Pair.get kcs b)))
        (mainP squareToy.withHistogram .debug ⟨some 2, 2, 2, 2, 2, 2⟩ (.attributeBasedMetrics 1)
          (Spec.runDraw squareDraw (fun _ => 0) w) 3)
        (.running (Pair.get kcs !b)) []).2
      = some (.abm [[true, false]] [⟨[], [[11, 20]]⟩, ⟨[], [[12, 20]]⟩]) := by
  obtain ⟨r, hj⟩ := run_points (P := squareToy) (fun _ _ _ => List.length_replicate) squareDraw
  obtain ⟨sizes, hsz, -⟩ := uploadBatches_spec (show 1 ≤ 2 by decide) 3 3 le_rfl
  obtain ⟨sh, sent, t0, t1, h, -⟩ := run_abm (P := squareToy) (aes := squareToy.aes) (Q := squareToy.withHistogram)
    (c0 := toyCfg 0 (some 2) .debug) (c1 := toyCfg 1 (some 2) .debug) (bld := .debug) (cfg := ⟨some 2, 2, 2, 2, 2, 2⟩)
    (draw := squareDraw) (n := 3) (d := 2) (weight := fun _ => 0) (num := 1) (sizes := sizes) rfl w kcs square_sensible
    (by norm_num) (fun _ _ _ => List.length_replicate) square_points square_honest rfl (by norm_num) rfl (by decide)
    (by decide) (by decide) (fun i _ => hj i) hsz
  have e : runAttributes 2 1 squareDraw = [[true, false]] := by decide +kernel
  rw [e] at h
  refine (congrArg Prod.snd (C102_false_abm b h (fun _ => [[10, 20]]) fun k =>
    ⟨rfl, fun r hr => by rw [List.mem_singleton.1 hr]; rfl⟩)).trans ?_
  have e1 : Spec.attributeHistograms 2 [[true, false]] ((Spec.runClients 2 squareDraw (fun _ => 0) 3).take 2) = [[1, 0]] := by
    decide +kernel
  have e2 : Spec.attributeHistograms 2 [[true, false]] ((Spec.runClients 2 squareDraw (fun _ => 0) 3).take 3) = [[2, 0]] := by
    decide +kernel
  have e3 : Spec.plus [[1, 0]] [[10, 20]] = [[11, 20]] := by decide +kernel
  have e4 : Spec.plus [[2, 0]] [[10, 20]] = [[12, 20]] := by decide +kernel
  have e5 : Spec.batches 3 2 = [(0, 2), (2, 3)] := by decide +kernel
  simp only [e5, List.map_cons, List.map_nil, List.mapIdx_cons, List.mapIdx_nil, e1, e2, e3, e4]

end Mastic
