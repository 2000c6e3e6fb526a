import Verif.Spec.Metrics
import Verif.Lemmas.Level

/-!
# Association lists and aggregates
-/

namespace Mastic

variable {P : Prims}

/-! ### Association lists -/

theorem lookup_cons_ite {α : Type} (m : List (Nat × α)) (a : Nat) (b : α) (k : Nat) :
    ((a, b) :: m).lookup k = if k = a then some b else m.lookup k := by
  by_cases h : k = a
  · subst h; simp
  · have : (k == a) = false := by simpa using h
    simp [List.lookup, this, h]

theorem lookup_mapInsert {α : Type} (m : List (Nat × α)) (k : Nat) (v : α) (k' : Nat) :
    (mapInsert m k v).lookup k' = if k' = k then some v else m.lookup k' := by
  induction m with
  | nil =>
    simp only [mapInsert, lookup_cons_ite]
  | cons e m ih =>
    obtain ⟨k1, v1⟩ := e
    simp only [mapInsert]
    by_cases h1 : k1 = k
    · subst h1
      simp only [if_true, lookup_cons_ite]
      by_cases h : k' = k1
      · simp [h]
      · simp [h]
    · simp only [h1, if_false, lookup_cons_ite]
      by_cases h : k' = k1
      · subst h; simp [h1]
      · simp [h, ih]

theorem mapInsert_keys {α : Type} (m : List (Nat × α)) (k : Nat) (v : α) (k' : Nat) :
    k' ∈ (mapInsert m k v).map Prod.fst ↔ k' = k ∨ k' ∈ m.map Prod.fst := by
  induction m with
  | nil => simp [mapInsert]
  | cons e m ih =>
    obtain ⟨k1, v1⟩ := e
    simp only [mapInsert]
    split
    · rename_i h; subst h; simp
    · simp only [List.map_cons, List.mem_cons, ih]
      tauto

theorem mapInsert_distinct {α : Type} {m : List (Nat × α)} (h : Spec.DistinctKeys m) (k : Nat) (v : α) :
    Spec.DistinctKeys (mapInsert m k v) := by
  induction m with
  | nil => simp [mapInsert, Spec.DistinctKeys]
  | cons e m ih =>
    obtain ⟨k1, v1⟩ := e
    unfold Spec.DistinctKeys at h ih ⊢
    rw [List.map_cons, List.nodup_cons] at h
    simp only [mapInsert]
    split
    · rename_i he; subst he
      rw [List.map_cons, List.nodup_cons]; exact h
    · rename_i he
      rw [List.map_cons, List.nodup_cons, mapInsert_keys]
      refine ⟨?_, ih h.2⟩
      rintro (h1 | h1)
      · exact he h1
      · exact h.1 h1

theorem mapRemove_fst {α : Type} (m : List (Nat × α)) (k : Nat) : (mapRemove m k).1 = m.lookup k := by
  induction m with
  | nil => rfl
  | cons e m ih =>
    obtain ⟨k1, v1⟩ := e
    simp only [mapRemove, lookup_cons_ite]
    by_cases h : k = k1
    · subst h; simp
    · simp [Ne.symm h, h, ih]

theorem mapRemove_snd {α : Type} {m : List (Nat × α)} (hd : Spec.DistinctKeys m) (k : Nat) :
    (mapRemove m k).2 = m.filter fun e => e.1 ≠ k := by
  induction m with
  | nil => rfl
  | cons e m ih =>
    obtain ⟨k1, v1⟩ := e
    unfold Spec.DistinctKeys at hd ih
    rw [List.map_cons, List.nodup_cons] at hd
    simp only [mapRemove]
    by_cases h : k1 = k
    · subst h
      simp only [if_true]
      rw [List.filter_cons_of_neg (by simp)]
      symm
      rw [List.filter_eq_self]
      intro e he
      have : e.1 ≠ k1 := fun h => hd.1 (List.mem_map.2 ⟨e, he, h⟩)
      simpa using this
    · simp only [h, if_false]
      rw [List.filter_cons_of_pos (by simpa using h), ih hd.2]

theorem distinct_filter {α : Type} {m : List (Nat × α)} (hd : Spec.DistinctKeys m)
    (p : Nat × α → Bool) : Spec.DistinctKeys (m.filter p) :=
  hd.sublist (List.filter_sublist.map _)

theorem mem_iff_lookup {α : Type} {m : List (Nat × α)} (hd : Spec.DistinctKeys m) (k : Nat) (v : α) :
    (k, v) ∈ m ↔ m.lookup k = some v := by
  induction m with
  | nil => simp
  | cons e m ih =>
    obtain ⟨k1, v1⟩ := e
    unfold Spec.DistinctKeys at hd ih
    rw [List.map_cons, List.nodup_cons] at hd
    simp only [List.mem_cons, lookup_cons_ite, Prod.mk.injEq]
    by_cases h : k = k1
    · subst h
      simp only [if_true, true_and, Option.some.injEq]
      constructor
      · rintro (h | h)
        · exact h.symm
        · exact absurd (List.mem_map_of_mem (f := Prod.fst) h) hd.1
      · intro h; exact Or.inl h.symm
    · simp [h, ih hd.2]

theorem perm_of_lookup {α : Type} {a b : List (Nat × α)} (ha : Spec.DistinctKeys a)
    (hb : Spec.DistinctKeys b) (h : ∀ k, a.lookup k = b.lookup k) : a.Perm b := by
  refine (List.perm_ext_iff_of_nodup (List.Nodup.of_map _ ha) (List.Nodup.of_map _ hb)).2 ?_
  rintro ⟨k, v⟩
  rw [mem_iff_lookup ha, mem_iff_lookup hb, h]

theorem lookup_filter_ne {α : Type} (m : List (Nat × α)) (p : Nat → Bool) (k : Nat) :
    (m.filter fun e => p e.1).lookup k = if p k then m.lookup k else none := by
  induction m with
  | nil => simp
  | cons e m ih =>
    obtain ⟨k1, v1⟩ := e
    by_cases hp : p k1
    · rw [List.filter_cons_of_pos (by simpa using hp)]
      simp only [lookup_cons_ite]
      by_cases h : k = k1
      · subst h; simp [hp]
      · simp [h, ih]
    · rw [List.filter_cons_of_neg (by simpa using hp), ih]
      simp only [lookup_cons_ite]
      by_cases h : k = k1
      · subst h; simp [hp]
      · simp [h]

/-! ### Tables -/

theorem cell_addRows {m n : Nat} {a : List (List Field128)} (ha : Spec.IsTable m n a)
    (v : List (List Field128)) : Spec.IsTable m n (addRows a v) ∧ ∀ j < m, ∀ c < n,
      Spec.cell (addRows a v) j c = Spec.cell a j c + Spec.cell v j c := by
  induction a generalizing m v with
  | nil =>
    obtain ⟨h1, -⟩ := ha
    simp only [List.length_nil] at h1
    subst h1
    exact ⟨⟨rfl, by simp [addRows]⟩, by omega⟩
  | cons x a ih =>
    obtain ⟨h1, h2⟩ := ha
    cases v with
    | nil => exact ⟨⟨h1, h2⟩, fun j _ c _ => by simp [addRows, Spec.cell]⟩
    | cons w v =>
      have hx : x.length = n := h2 x (by simp)
      cases m with
      | zero => simp at h1
      | succ m =>
        obtain ⟨⟨i1, i2⟩, i3⟩ := ih (m := m) ⟨by simpa using h1, fun r hr => h2 r (by simp [hr])⟩ v
        have hvl : (vecAdd x w).length = n := by
          rw [vecAdd_length, hx]
        refine ⟨⟨by simpa [addRows] using i1, ?_⟩, ?_⟩
        · intro r hr
          simp only [addRows, List.mem_cons] at hr
          rcases hr with rfl | hr
          · exact hvl
          · exact i2 r hr
        · intro j hj c hc
          cases j with
          | zero =>
            simp only [addRows, Spec.cell, List.getElem?_cons_zero, Option.bind_some,
              vecAdd_getElem?]
            have hxc : x[c]? = some (x[c]'(by omega)) := List.getElem?_eq_getElem _
            rw [hxc]
            cases w[c]? <;> simp
          | succ j =>
            have := i3 j (by omega) c hc
            simpa [addRows, Spec.cell] using this

theorem abmAggregate_isSum (n m : Nat) (entries : List (Nat × List (List Field128))) :
    Spec.IsSum m n (entries.map Prod.snd) (abmAggregate n m entries) := by
  have key : ∀ (entries : List (Nat × List (List Field128))) (t : List (List Field128)),
      Spec.IsTable m n t → Spec.IsTable m n (entries.foldl (fun agg e => addRows agg e.2) t) ∧
      ∀ j < m, ∀ c < n, Spec.cell (entries.foldl (fun agg e => addRows agg e.2) t) j c =
        Spec.cell t j c + (entries.map fun e => Spec.cell e.2 j c).sum := by
    intro entries
    induction entries with
    | nil => intro t ht; exact ⟨ht, by simp⟩
    | cons e es ih =>
      intro t ht
      obtain ⟨h1, h2⟩ := cell_addRows ht e.2
      obtain ⟨h3, h4⟩ := ih _ h1
      refine ⟨h3, fun j hj c hc => ?_⟩
      rw [List.foldl_cons, h4 j hj c hc, h2 j hj c hc, List.map_cons, List.sum_cons]
      ring
  obtain ⟨h1, h2⟩ := key entries (List.replicate m (List.replicate n 0))
    ⟨by simp, fun r hr => by rw [List.eq_of_mem_replicate hr]; simp⟩
  refine ⟨h1, fun j hj c hc => ?_⟩
  unfold abmAggregate
  rw [h2 j hj c hc, List.map_map]
  have : Spec.cell (List.replicate m (List.replicate n 0)) j c = 0 := by
    simp [Spec.cell, hj, hc]
  rw [this, zero_add]
  rfl

/-- The sum table is unique. -/
theorem isSum_unique {m n : Nat} {ts us : List (List (List Field128))} {x y : List (List Field128)}
    (hx : Spec.IsSum m n ts x) (hy : Spec.IsSum m n us y) (h : ts.Perm us) : x = y := by
  refine List.ext_getElem (by rw [hx.1.1, hy.1.1]) fun j h1 h2 => ?_
  have lx := hx.1.2 _ (List.getElem_mem h1)
  have ly := hy.1.2 _ (List.getElem_mem h2)
  refine List.ext_getElem (by rw [lx, ly]) fun c h3 h4 => ?_
  have hj : j < m := by rw [← hx.1.1]; exact h1
  have hc : c < n := by rw [← lx]; exact h3
  have e1 := hx.2 j hj c hc
  have e2 := hy.2 j hj c hc
  rw [(h.map fun t => Spec.cell t j c).sum_eq, ← e2] at e1
  simpa [Spec.cell, List.getElem?_eq_getElem h1, List.getElem?_eq_getElem h2,
    List.getElem?_eq_getElem h3, List.getElem?_eq_getElem h4] using e1

/-! ### The rejection loop -/

theorem abmReject_debug {st : List (Nat × List (List Field128))} (hd : Spec.DistinctKeys st) :
    ∀ (rej : List Nat), (rej.Nodup ∧ ∀ k ∈ rej, k ∈ st.map Prod.fst) →
      abmReject .debug st rej = .ok (st.filter fun e => e.1 ∉ rej) := by
  intro rej
  unfold abmReject
  dsimp only
  induction rej generalizing st with
  | nil => intro _; simp [foldE]
  | cons k rej ih =>
    rintro ⟨hn, hm⟩
    rw [List.nodup_cons] at hn
    rw [foldE_cons]
    have hk := hm k (by simp)
    obtain ⟨⟨k', v⟩, he, rfl⟩ := List.mem_map.1 hk
    have hl := (mem_iff_lookup hd k' v).1 he
    have h1 : mapRemove st k' = (some v, st.filter fun e => e.1 ≠ k') := by
      rw [← mapRemove_snd hd, ← hl, ← mapRemove_fst]
    simp only [h1, ok_bind]
    rw [ih (distinct_filter hd _) ⟨hn.2, ?_⟩, List.filter_filter]
    · congr 1
      refine List.filter_congr fun e _ => ?_
      simp only [List.mem_cons, not_or]
      by_cases h2 : e.1 = k' <;> by_cases h3 : e.1 ∈ rej <;> simp [h2, h3]
    · intro x hx
      obtain ⟨e, he, rfl⟩ := List.mem_map.1 (hm x (by simp [hx]))
      refine List.mem_map.2 ⟨e, List.mem_filter.2 ⟨he, ?_⟩, rfl⟩
      have : e.1 ≠ k' := fun h => hn.1 (h ▸ hx)
      simpa using this

theorem abmReject_debug_iff {st : List (Nat × List (List Field128))} (hd : Spec.DistinctKeys st)
    (rej : List Nat) :
    Returns (abmReject .debug st rej) ↔ rej.Nodup ∧ ∀ k ∈ rej, k ∈ st.map Prod.fst := by
  refine ⟨?_, fun h => ⟨_, abmReject_debug hd rej h⟩⟩
  unfold abmReject
  dsimp only
  induction rej generalizing st with
  | nil => intro _; simp
  | cons k rej ih =>
    rintro ⟨r, hr⟩
    rw [foldE_cons] at hr
    have hf := mapRemove_fst st k
    have hs := mapRemove_snd hd k
    cases hm : mapRemove st k with
    | mk o m' =>
      rw [hm] at hf hs hr
      cases o with
      | none => cases hr
      | some v =>
        simp only [ok_bind] at hr
        have hs' : m' = st.filter fun e => e.1 ≠ k := hs
        subst hs'
        obtain ⟨h1, h2⟩ := ih (distinct_filter hd _) ⟨r, hr⟩
        have hk : (k, v) ∈ st := (mem_iff_lookup hd k v).2 hf.symm
        refine ⟨List.nodup_cons.2 ⟨fun hmem => ?_, h1⟩, ?_⟩
        · obtain ⟨e, he, h3⟩ := List.mem_map.1 (h2 k hmem)
          simpa [h3] using (List.mem_filter.1 he).2
        · intro x hx
          rcases List.mem_cons.1 hx with rfl | hx
          · exact List.mem_map.2 ⟨_, hk, rfl⟩
          · obtain ⟨e, he, rfl⟩ := List.mem_map.1 (h2 x hx)
            exact List.mem_map.2 ⟨e, (List.mem_filter.1 he).1, rfl⟩

/-! ### Validation -/

theorem rangeFrom_mem {s e i : Nat} : i ∈ rangeFrom s e ↔ s ≤ i ∧ i < e := by
  unfold rangeFrom; rw [List.mem_range'_1]; omega

theorem foldl_mapInsert_distinct {α β : Type} (f : β → Nat × α) :
    ∀ (rs : List β) (m : List (Nat × α)), Spec.DistinctKeys m →
      Spec.DistinctKeys (rs.foldl (fun m r => mapInsert m (f r).1 (f r).2) m)
  | [], _, h => h
  | _ :: rs, _, h => foldl_mapInsert_distinct f rs _ (mapInsert_distinct h _ _)

theorem foldl_mapInsert_lookup {α β : Type} (f : β → Nat × α) :
    ∀ (rs : List β) (m : List (Nat × α)) (k : Nat), ((rs.map fun r => (f r).1).Nodup) →
      (rs.foldl (fun m r => mapInsert m (f r).1 (f r).2) m).lookup k =
        match rs.find? fun r => (f r).1 == k with
        | some r => some (f r).2
        | none => m.lookup k
  | [], m, k, _ => rfl
  | r :: rs, m, k, h => by
    rw [List.map_cons, List.nodup_cons] at h
    rw [List.foldl_cons, foldl_mapInsert_lookup f rs _ k h.2, List.find?_cons]
    by_cases hk : (f r).1 = k
    · subst hk
      have : rs.find? (fun r' => (f r').1 == (f r).1) = none := by
        rw [List.find?_eq_none]
        intro x hx he
        exact h.1 (by rw [← (by simpa using he : (f x).1 = (f r).1)]; exact List.mem_map_of_mem (f := fun r => (f r).1) hx)
      rw [this]
      simp [lookup_mapInsert]
    · have hk' : ((f r).1 == k) = false := by simpa using hk
      rw [hk']
      simp only
      cases rs.find? (fun r => (f r).1 == k) with
      | some x => rfl
      | none => simp only [lookup_mapInsert, Ne.symm hk, if_false]

theorem abmValidateClient_fst {kc : KeyCollection P} {a : List (List Bool)} {i : Nat}
    {r : Nat × List (List Field128) × List Field128 × Vector Byte 32}
    (h : abmValidateClient kc a i = .ok r) : r.1 = i := by
  unfold abmValidateClient at h
  obtain ⟨_, -, h⟩ := bind_eq_ok.1 h
  obtain ⟨_, -, h⟩ := bind_eq_ok.1 h
  obtain ⟨⟨_, _, _⟩, -, h⟩ := bind_eq_ok.1 h
  obtain ⟨_, -, h⟩ := bind_eq_ok.1 h
  obtain ⟨_, -, h⟩ := bind_eq_ok.1 h
  obtain ⟨_, -, h⟩ := bind_eq_ok.1 h
  obtain ⟨_, -, h⟩ := bind_eq_ok.1 h
  cases h; rfl

/-- `attribute_based_metrics_validate`, unfolded. -/
theorem srvAbmValidate_ok {kc kc' : KeyCollection P} {a : List (List Bool)} {s e : Nat}
    {r : List (List Field128 × Vector Byte 32)} (h : srvAbmValidate kc a s e = .ok (kc', r)) :
    ∃ results, mapE (abmValidateClient kc a) (rangeFrom s e) = .ok results ∧
      results.map Prod.fst = rangeFrom s e ∧ s ≤ e ∧
      kc' = { kc with abmState := results.foldl (fun m r => mapInsert m r.1 r.2.1) kc.abmState } ∧
      r = results.map fun r => (r.2.2.1, r.2.2.2) := by
  unfold srvAbmValidate at h
  obtain ⟨_, hc, h⟩ := bind_eq_ok.1 h
  obtain ⟨results, hr, h⟩ := bind_eq_ok.1 h
  cases h
  refine ⟨results, hr, ?_, ?_, rfl, rfl⟩
  · rw [mapE_eq_ok_iff_getElem] at hr
    refine List.ext_getElem? fun i => ?_
    rw [List.getElem?_map]
    cases hi : (rangeFrom s e)[i]? with
    | none =>
      have : results[i]? = none := by
        rw [List.getElem?_eq_none_iff] at hi ⊢; omega
      rw [this]; rfl
    | some k =>
      obtain ⟨b, h1, h2⟩ := hr.2 i k hi
      rw [h1, Option.map_some, abmValidateClient_fst h2]
  · unfold withCapacity at hc
    split at hc
    · assumption
    · cases hc

/-- What the stored state holds after validation: the new value shares of the batch, everything else
as before. -/
theorem srvAbmValidate_lookup {kc kc' : KeyCollection P} {a : List (List Bool)} {s e : Nat}
    {r : List (List Field128 × Vector Byte 32)} (h : srvAbmValidate kc a s e = .ok (kc', r)) (k : Nat) :
    (∀ x, s ≤ k → k < e → abmValidateClient kc a k = .ok x → kc'.abmState.lookup k = some x.2.1) ∧
    (s ≤ k → k < e → ∃ x, abmValidateClient kc a k = .ok x ∧ kc'.abmState.lookup k = some x.2.1) ∧
    (¬ (s ≤ k ∧ k < e) → kc'.abmState.lookup k = kc.abmState.lookup k) := by
  obtain ⟨results, hr, hk, -, rfl, -⟩ := srvAbmValidate_ok h
  have hnd : (results.map Prod.fst).Nodup := by
    rw [hk]; exact List.nodup_range'
  have hl := foldl_mapInsert_lookup (fun r : Nat × List (List Field128) × List Field128 × Vector Byte 32
    => (r.1, r.2.1)) results kc.abmState k hnd
  dsimp only at hl ⊢
  have hin : s ≤ k → k < e → ∃ x, abmValidateClient kc a k = .ok x ∧
      (results.foldl (fun m r => mapInsert m r.1 r.2.1) kc.abmState).lookup k = some x.2.1 := by
    intro h1 h2
    have hmem : k ∈ results.map Prod.fst := by rw [hk]; exact rangeFrom_mem.2 ⟨h1, h2⟩
    obtain ⟨x, hx, rfl⟩ := List.mem_map.1 hmem
    have hv : abmValidateClient kc a x.1 = .ok x := by
      rw [mapE_eq_ok_iff_getElem] at hr
      obtain ⟨i, hi⟩ := List.getElem?_of_mem hx
      have hki : (rangeFrom s e)[i]? = some x.1 := by
        rw [← hk, List.getElem?_map, hi]; rfl
      obtain ⟨b, h3, h4⟩ := hr.2 i _ hki
      rw [hi] at h3; cases h3; exact h4
    refine ⟨x, hv, ?_⟩
    rw [hl]
    cases hf : results.find? (fun r => r.1 == x.1) with
    | none =>
      rw [List.find?_eq_none] at hf
      exact absurd (by simp) (hf x hx)
    | some y =>
      have hy := List.find?_some hf
      have hym := List.mem_of_find?_eq_some hf
      have : y = x := by
        have := List.inj_on_of_nodup_map hnd hym hx (by simpa using hy)
        exact this
      rw [this]
  refine ⟨?_, hin, ?_⟩
  · intro x h1 h2 h3
    obtain ⟨y, h4, h5⟩ := hin h1 h2
    rw [h3] at h4; cases h4; exact h5
  · intro hne
    rw [hl]
    have : results.find? (fun r => r.1 == k) = none := by
      rw [List.find?_eq_none]
      intro x hx he
      apply hne
      rw [← rangeFrom_mem, ← hk]
      have : x.1 = k := by simpa using he
      rw [← this]; exact List.mem_map_of_mem hx
    rw [this]

/-! ### The stored keys of reachable states are distinct -/

/-- Both maps of the server have distinct keys. -/
def MapsOk (kc : KeyCollection P) : Prop := Spec.DistinctKeys kc.abmState ∧ Spec.DistinctKeys kc.pmState

theorem pmLoop_distinct {id : Int} {n : Nat} :
    ∀ (ips : List (Nat × List Byte)) {m m' : List (Nat × (P.PrepState × P.PrepShare))}
      {os : List (List Field128)}, Spec.DistinctKeys m →
      pmResultLoop id n ips m = .ok (m', os) → Spec.DistinctKeys m'
  | [], m, m', os, hd, h => by cases h; exact hd
  | ip :: ips, m, m', os, hd, h => by
    unfold pmResultLoop at h
    obtain ⟨⟨m1, o⟩, h1, h⟩ := bind_eq_ok.1 h
    obtain ⟨⟨m2, os2⟩, h2, h⟩ := bind_eq_ok.1 h
    cases h
    refine pmLoop_distinct ips ?_ h2
    unfold pmResultClient at h1
    dsimp only at h1
    obtain ⟨⟨st, sh⟩, -, h1⟩ := bind_eq_ok.1 h1
    obtain ⟨peer, -, h1⟩ := bind_eq_ok.1 h1
    have hd' : Spec.DistinctKeys (mapRemove m ip.1).2 := by
      rw [mapRemove_snd hd]; exact distinct_filter hd _
    dsimp only at h1
    split at h1
    · cases h1; exact hd'
    · cases h1; exact hd'

theorem locked_maps {cfg : ServerCfg} {kc kc' : KeyCollection P} {req : Req} {resp : Resp}
    (hi : MapsOk kc) (h : locked cfg kc req = .ok (kc', resp)) : MapsOk kc' := by
  cases req with
  | reset vk b =>
    simp only [locked, srvReset] at h
    obtain ⟨kc1, h1, h⟩ := bind_eq_ok.1 h
    cases h
    split at h1
    · cases h1; exact ⟨List.nodup_nil, List.nodup_nil⟩
    · cases h1
  | addReportShares rs =>
    simp only [locked] at h; cases h
    rw [srvAdd_eq]
    exact hi
  | treeInit =>
    simp only [locked] at h
    obtain ⟨kc1, h1, h⟩ := bind_eq_ok.1 h
    cases h
    obtain ⟨keys, -, rfl⟩ := treeInit_ok h1
    exact hi
  | treeCrawl s m l =>
    simp only [locked] at h
    obtain ⟨⟨kc1, r⟩, h1, h⟩ := bind_eq_ok.1 h
    cases h
    obtain ⟨kc2, next, digests, rs, hp, -, -, rfl, -⟩ := treeCrawl_ok h1
    obtain ⟨reports, fr, rfl, -, hev, -, -⟩ := crawlPrep_ok hp
    exact hi
  | runFlpQueries s e =>
    simp only [locked] at h
    obtain ⟨_, -, h⟩ := bind_eq_ok.1 h
    obtain ⟨_, -, h⟩ := bind_eq_ok.1 h
    cases h
    exact hi
  | applyFlpResults keep =>
    simp only [locked] at h
    obtain ⟨kc1, h1, h⟩ := bind_eq_ok.1 h
    cases h
    obtain ⟨reports, rfl, -, hev⟩ := applyFlpResults_ok h1
    exact hi
  | treeCrawlLast =>
    simp only [locked] at h
    obtain ⟨⟨kc1, r⟩, h1, h⟩ := bind_eq_ok.1 h
    cases h
    obtain ⟨next, proofs, -, -, rfl, -⟩ := treeCrawlLast_ok h1
    exact hi
  | getProofs s e =>
    simp only [locked] at h
    obtain ⟨_, -, h⟩ := bind_eq_ok.1 h
    cases h
    exact hi
  | treePrune keep =>
    simp only [locked] at h
    obtain ⟨kc1, h1, h⟩ := bind_eq_ok.1 h
    cases h
    rw [treePrune_spec] at h1
    split at h1
    · cases h1; exact hi
    · cases h1
  | finalShares =>
    simp only [locked] at h; cases h
    exact hi
  | abmValidate a s e =>
    simp only [locked] at h
    obtain ⟨⟨kc1, r⟩, h1, h⟩ := bind_eq_ok.1 h
    cases h
    obtain ⟨results, -, -, -, rfl, -⟩ := srvAbmValidate_ok h1
    exact ⟨foldl_mapInsert_distinct (fun r : Nat × List (List Field128) × List Field128 × Vector Byte 32
      => (r.1, r.2.1)) _ _ hi.1, hi.2⟩
  | abmResult rej n s e =>
    simp only [locked] at h
    obtain ⟨⟨kc1, r⟩, h1, h⟩ := bind_eq_ok.1 h
    cases h
    unfold srvAbmResult at h1
    obtain ⟨st, hst, h1⟩ := bind_eq_ok.1 h1
    cases h1
    refine ⟨?_, hi.2⟩
    show Spec.DistinctKeys st
    cases hb : cfg.build with
    | release => rw [hb] at hst; cases hst; exact hi.1
    | debug =>
      rw [hb] at hst
      have := (abmReject_debug_iff hi.1 rej).1 ⟨_, hst⟩
      rw [abmReject_debug hi.1 rej this] at hst
      cases hst
      exact distinct_filter hi.1 _
  | pmValidate s e =>
    simp only [locked] at h
    obtain ⟨⟨kc1, r⟩, h1, h⟩ := bind_eq_ok.1 h
    cases h
    unfold srvPmValidate at h1
    obtain ⟨_, -, h1⟩ := bind_eq_ok.1 h1
    obtain ⟨_, -, h1⟩ := bind_eq_ok.1 h1
    split at h1
    · cases h1
    · obtain ⟨results, -, h1⟩ := bind_eq_ok.1 h1
      cases h1
      exact ⟨hi.1, foldl_mapInsert_distinct (fun r : Nat × P.PrepState × P.PrepShare => r) _ _ hi.2⟩
  | pmResult peers s e =>
    simp only [locked] at h
    obtain ⟨⟨kc1, a, r⟩, h1, h⟩ := bind_eq_ok.1 h
    cases h
    unfold srvPmResult at h1
    split at h1
    · cases h1
    · obtain ⟨⟨m, outs⟩, h2, h1⟩ := bind_eq_ok.1 h1
      obtain ⟨_, -, h1⟩ := bind_eq_ok.1 h1
      obtain ⟨_, -, h1⟩ := bind_eq_ok.1 h1
      cases h1
      exact ⟨hi.1, pmLoop_distinct _ hi.2 h2⟩

theorem reachable_maps {cfg : ServerCfg} {b : Nat} {kc : KeyCollection P}
    (h : Spec.Reachable P cfg b kc) : MapsOk kc := by
  obtain ⟨reqs, h⟩ := h
  have h0 : MapsOk (KeyCollection.new P b cfg.serverId cfg.dataBits Block.zero) :=
    ⟨List.nodup_nil, List.nodup_nil⟩
  exact run_induction MapsOk (fun _ => True) (fun kc req kc' r _ hi hl => locked_maps hi hl) reqs _ kc
    (by simp) h0 h

end Mastic
