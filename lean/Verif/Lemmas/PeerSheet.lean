import Verif.Lemmas.PeerDriver

/-!
# Lemmas: the keys of one server with two assignments of weights
-/

namespace Mastic

variable {Q Q' : Prims} {n d : Nat}

theorem mem_upTo {p : List Bool} : p ∈ Spec.upTo d ↔ p ≠ [] ∧ p.length ≤ d := by
  unfold Spec.upTo
  rw [List.mem_flatMap]
  constructor
  · rintro ⟨k, hk, hp⟩
    have hl := mem_allPaths.1 hp
    have := List.mem_range.1 hk
    exact ⟨by rintro rfl; simp at hl, by omega⟩
  · rintro ⟨h1, h2⟩
    have := List.length_pos_iff.2 h1
    exact ⟨p.length - 1, List.mem_range.2 (by omega), mem_allPaths.2 (by omega)⟩

/-- The states and values of a key. -/
def sheetOf (Q : Prims) (n : Nat) (key : VidpfKey) : Sheet where
  key := key
  st := fun p => match Spec.evalPath Q key n p with
    | .ok r => r.1
    | .error _ => key.evalInit
  val := fun p => match Spec.evalPath Q key n p with
    | .ok (_, some v) => v
    | _ => [0]

theorem sheetOf_st {key : VidpfKey} {p : List Bool} {r : EvalState × Option (List Field128)}
    (h : Spec.evalPath Q key n p = .ok r) : (sheetOf Q n key).st p = r.1 := by
  simp only [sheetOf, h]

theorem sheetOf_val {key : VidpfKey} {p : List Bool} {st : EvalState} {v : List Field128}
    (h : Spec.evalPath Q key n p = .ok (st, some v)) : (sheetOf Q n key).val p = v := by
  simp only [sheetOf, h]

theorem sheet_fits {key : VidpfKey} (h : ∀ p : List Bool, p.length ≤ d → ∃ r, Spec.evalPath Q key n p = .ok r) :
    (sheetOf Q n key).Fits Q n d := by
  refine ⟨rfl, rfl, fun p hp b => ?_⟩
  obtain ⟨r, hr⟩ := h p (by omega)
  obtain ⟨r', hr'⟩ := h (p ++ [b]) (by simp; omega)
  rw [sheetOf_st hr, ← pathString_snoc]
  have e := hr'
  rw [evalPath_snoc, hr, ok_bind] at e
  obtain ⟨q, e1, e2⟩ := bind_eq_ok.1 e
  rw [← Except.ok.inj e2] at hr'
  rw [sheetOf_st hr', sheetOf_val hr']
  exact e1

/-- An entry of the value of a client at a prefix. -/
def pointEntry (alpha : List Bool) (beta : List Field128) (p : List Bool) (i : Nat) : Field128 :=
  if p <+: alpha then (beta ++ [1])[i]?.getD 0 else 0

theorem pointEntry_eq {alpha p : List Bool} {beta : List Field128} {i : Nat} (hi : i < beta.length + 1) :
    (Spec.pointValue alpha beta p)[i]? = some (pointEntry alpha beta p i) := by
  unfold Spec.pointValue pointEntry
  split
  · rw [List.getElem?_eq_getElem (by simpa using hi)]
    rfl
  · rw [List.getElem?_replicate, if_pos hi]

theorem pointEntry_count {alpha p : List Bool} {beta beta' : List Field128} (h : beta.length = n) (h' : beta'.length = n) :
    pointEntry alpha beta p n = pointEntry alpha beta' p n := by
  unfold pointEntry
  split
  · subst h
    rw [List.getElem?_append_right le_rfl, List.getElem?_append_right h'.le]
    simp [h']
  · rfl

theorem pointEntry_split {alpha p : List Bool} {beta : List Field128} (hl : p.length < alpha.length) (i : Nat) :
    pointEntry alpha beta p i = pointEntry alpha beta (p ++ [false]) i + pointEntry alpha beta (p ++ [true]) i := by
  unfold pointEntry
  by_cases hp : p <+: alpha
  · obtain ⟨rest, rfl⟩ := hp
    cases rest with
    | nil => simp at hl
    | cons b rest =>
      have hb : ∀ x, p ++ [x] <+: p ++ b :: rest ↔ x = b := by
        intro x; rw [List.prefix_append_right_inj]; simp [List.cons_prefix_cons]
      rw [if_pos (List.prefix_append _ _)]
      cases b
      · rw [if_pos ((hb false).2 rfl), if_neg (by rw [hb]; decide), add_zero]
      · rw [if_pos ((hb true).2 rfl), if_neg (by rw [hb]; decide), zero_add]
  · have hx : ∀ x, ¬ p ++ [x] <+: alpha := fun x hx => hp (prefix_snoc_left hx)
    rw [if_neg hp, if_neg (hx _), if_neg (hx _), add_zero]

/-- The values of one server from those of the other one. -/
theorem peer_value {rs : Block × Block} {alpha : List Bool} {beta : List Field128} (hb : beta.length = n) (own : Bool)
    {p : List Bool} (hl : p.length ≤ alpha.length) :
    ∃ r s, Spec.evalPath Q (Pair.get (VidpfKey.gen Q rs alpha beta) own) n p = .ok r ∧
      Spec.evalPath Q (Pair.get (VidpfKey.gen Q rs alpha beta) !own) n p = .ok s ∧ s.1.proof = r.1.proof ∧
      (p ≠ [] → ∃ x v, r.2 = some x ∧ s.2 = some v ∧ v.length = n + 1 ∧
        ∀ i < n + 1, ∃ y, x[i]? = some y ∧ v[i]? = some (pointEntry alpha beta p i - y)) := by
  obtain ⟨r0, r1, e0, e1, hp, hv⟩ := honest_evalPath Q rs alpha beta p hl
  rw [hb] at e0 e1
  have entry : ∀ x v : List Field128, x.length = n + 1 → v.length = n + 1 →
      Spec.addShares x v = Spec.pointValue alpha beta p →
      ∀ i < n + 1, ∃ y z, x[i]? = some y ∧ v[i]? = some z ∧ y + z = pointEntry alpha beta p i := by
    intro x v hx hv h i hi
    have := congrArg (·[i]?) h
    rw [Spec.addShares, List.getElem?_zipWith, pointEntry_eq (by omega), List.getElem?_eq_getElem (by omega),
      List.getElem?_eq_getElem (by omega)] at this
    exact ⟨x[i]'(by omega), v[i]'(by omega), List.getElem?_eq_getElem _, List.getElem?_eq_getElem _,
      by simpa using this⟩
  cases own with
  | false =>
    refine ⟨r0, r1, e0, e1, hp.symm, fun hne => ?_⟩
    obtain ⟨v0, v1, f0, f1, l0, l1, hs⟩ := hv hne
    refine ⟨v0, v1, f0, f1, by omega, fun i hi => ?_⟩
    obtain ⟨y, z, g1, g2, g3⟩ := entry v0 v1 (by omega) (by omega) hs i hi
    exact ⟨y, g1, by rw [g2, ← g3]; ring_nf⟩
  | true =>
    refine ⟨r1, r0, e1, e0, hp, fun hne => ?_⟩
    obtain ⟨v0, v1, f0, f1, l0, l1, hs⟩ := hv hne
    refine ⟨v1, v0, f1, f0, by omega, fun i hi => ?_⟩
    obtain ⟨y, z, g1, g2, g3⟩ := entry v0 v1 (by omega) (by omega) hs i hi
    exact ⟨z, g2, by rw [g1, ← g3]; ring_nf⟩

theorem peer_fits {rs : Block × Block} {alpha : List Bool} {beta : List Field128} (hb : beta.length = n)
    (ha : alpha.length = d) (own : Bool) : (sheetOf Q n (Pair.get (VidpfKey.gen Q rs alpha beta) !own)).Fits Q n d := by
  refine sheet_fits fun p hp => ?_
  obtain ⟨-, s, -, h, -⟩ := peer_value (Q := Q) (rs := rs) hb own (ha ▸ hp)
  exact ⟨s, h⟩

theorem peer_twin {rs : Block × Block} {alpha : List Bool} {beta beta' : List Field128} (hb : beta.length = n)
    (hb' : beta'.length = n) (ha : alpha.length = d) (own : Bool)
    (hg : VidpfKey.gen Q' rs alpha beta' = VidpfKey.gen Q rs alpha beta)
    (hown : ∀ p : List Bool, p ≠ [] → p.length ≤ d →
      Spec.evalPath Q' (Pair.get (VidpfKey.gen Q rs alpha beta) own) n p
        = Spec.evalPath Q (Pair.get (VidpfKey.gen Q rs alpha beta) own) n p) :
    SheetTwin n d (sheetOf Q n (Pair.get (VidpfKey.gen Q rs alpha beta) !own))
      (sheetOf Q' n (Pair.get (VidpfKey.gen Q' rs alpha beta') !own)) := by
  have key : ∀ p : List Bool, p ≠ [] → p.length ≤ d →
      ((sheetOf Q n (Pair.get (VidpfKey.gen Q rs alpha beta) !own)).st p).proof
        = ((sheetOf Q' n (Pair.get (VidpfKey.gen Q' rs alpha beta') !own)).st p).proof ∧
      ((sheetOf Q n (Pair.get (VidpfKey.gen Q rs alpha beta) !own)).val p).length = n + 1 ∧
      ((sheetOf Q' n (Pair.get (VidpfKey.gen Q' rs alpha beta') !own)).val p).length = n + 1 ∧
      ∀ i < n + 1, ∃ y, ((sheetOf Q n (Pair.get (VidpfKey.gen Q rs alpha beta) !own)).val p)[i]?
          = some (pointEntry alpha beta p i - y) ∧
        ((sheetOf Q' n (Pair.get (VidpfKey.gen Q' rs alpha beta') !own)).val p)[i]?
          = some (pointEntry alpha beta' p i - y) := by
    intro p hne hl
    obtain ⟨r, ⟨s1, s2⟩, e1, e2, e3, e4⟩ := peer_value (Q := Q) (rs := rs) hb own (p := p) (ha ▸ hl)
    obtain ⟨r', ⟨s1', s2'⟩, f1, f2, f3, f4⟩ := peer_value (Q := Q') (rs := rs) hb' own (p := p) (ha ▸ hl)
    rw [hg, hown p hne hl, e1] at f1
    obtain rfl := Except.ok.inj f1
    obtain ⟨x, v, g1, g2, g3, g4⟩ := e4 hne
    obtain ⟨x', v', g1', g2', g3', g4'⟩ := f4 hne
    dsimp only at g2 g2'
    subst g2 g2'
    rw [g1] at g1'
    obtain rfl := Option.some.inj g1'
    rw [sheetOf_st e2, sheetOf_st f2, sheetOf_val e2, sheetOf_val f2]
    refine ⟨e3.trans f3.symm, g3, g3', fun i hi => ?_⟩
    obtain ⟨y, h1, h2⟩ := g4 i hi
    obtain ⟨y', h1', h2'⟩ := g4' i hi
    rw [h1] at h1'
    obtain rfl := Option.some.inj h1'
    exact ⟨y, h2, h2'⟩
  refine ⟨fun p hp => ?_, fun p hne hp => ?_, fun p hp sid => ⟨fun hz => ?_, fun hz i hi => ?_⟩⟩
  · by_cases hne : p = []
    · subst hne
      cases own <;> rfl
    · exact (key p hne hp).1
  · obtain ⟨-, h1, h2, h3⟩ := key p hne hp
    obtain ⟨y, h4, h5⟩ := h3 n (by omega)
    exact ⟨h1.trans h2.symm, by unfold CntEq; rw [h4, h5, pointEntry_count hb hb']⟩
  · obtain ⟨y0, a0, b0⟩ := (key (p ++ [false]) (by simp) (by simp; omega)).2.2.2 n (by omega)
    obtain ⟨y1, a1, b1⟩ := (key (p ++ [true]) (by simp) (by simp; omega)).2.2.2 n (by omega)
    rw [← pointEntry_count hb hb'] at b0 b1
    unfold valueCheck
    simp only [hz, if_true]
    split <;> simp only [vecSub_getElem?, vecAdd_getElem?, a0, a1, b0, b1]
  · have hne : p ≠ [] := fun h => hz (by rw [h]; rfl)
    obtain ⟨yp, ap, bp⟩ := (key p hne hp.le).2.2.2 i (by omega)
    obtain ⟨y0, a0, b0⟩ := (key (p ++ [false]) (by simp) (by simp; omega)).2.2.2 i (by omega)
    obtain ⟨y1, a1, b1⟩ := (key (p ++ [true]) (by simp) (by simp; omega)).2.2.2 i (by omega)
    have hz' : (List.replicate (n + 1) (0 : Field128))[i]? = some 0 := by
      rw [List.getElem?_replicate, if_pos (by omega)]
    unfold valueCheck
    simp only [hz, if_false]
    rw [pointEntry_split (by omega)] at ap bp
    split
    · simp only [vecSub_getElem?, vecAdd_getElem?, a0, a1, b0, b1, ap, bp, hz', Option.some.injEq]
      ring
    · simp only [vecSub_getElem?, vecAdd_getElem?, a0, a1, b0, b1, ap, bp, hz', Option.some.injEq]
      ring

/-- The answer to a query about the proofs. -/
theorem flp_reply {shares : List ReportShare} {kc k1 : KeyCollection Q} {ver : List (List Field128)} {bld : Build}
    (hR : kc.reportShares = shares.map fun s => (true, s)) (hn : kc.inputLen = n) (hk0 : KeysReach 0 kc.reportShares)
    (hv : shares.map (Spec.verifierOf Q n kc.serverId kc.verifyKey) = ver.map some) (e1 : kc.treeInit = .ok k1) {s e : Nat}
    (h2 : e ≤ shares.length) : k1.runFlpQueries bld s e = .ok ((ver.drop s).take (e - s)) := by
  have hvl : shares.length = ver.length := by simpa using congrArg List.length hv
  obtain ⟨root, fr, rfl⟩ := treeInit_fresh e1
  obtain ⟨l, a0⟩ := fr.children hk0 false
  obtain ⟨r, a1⟩ := fr.children hk0 true
  have x := fr.child a0
  have y := fr.child a1
  have hready := fr.ready (n := shares.length) (by show kc.reportShares.length = _; rw [hR, List.length_map]) a0 a1
  rw [runFlp_eq hready.frontier hready.path hready.left hready.right hready.values hready.reports h2,
    mapE_eq_ok_iff_getElem]
  refine ⟨by simp; omega, fun i a hia => ?_⟩
  have hil : i < e - s := by simpa using (List.getElem?_eq_some_iff.1 hia).1
  obtain rfl : a = s + i := by
    rw [List.getElem?_range' hil] at hia
    simpa using hia.symm
  have hin : s + i < shares.length := by omega
  have hi2 := congrArg (fun l => l[s + i]?) hv
  simp only [List.getElem?_map, List.getElem?_eq_getElem hin, List.getElem?_eq_getElem (hvl ▸ hin),
    Option.map_some, Option.some.injEq] at hi2
  refine ⟨ver[s + i]'(hvl ▸ hin), ?_, ?_⟩
  · rw [List.getElem?_take_of_lt hil, List.getElem?_drop, List.getElem?_eq_getElem]
  · refine (flpQueryClient_iff (b := true) (s := shares[s + i]) ?_ x.2 x.1 y.2 y.1).2 ?_
    · show kc.reportShares[s + i]? = _
      rw [hR, List.getElem?_map, List.getElem?_eq_getElem hin]; rfl
    · show Spec.verifierOf Q kc.inputLen kc.serverId kc.verifyKey _ = _
      rw [hn]; exact hi2

end Mastic
