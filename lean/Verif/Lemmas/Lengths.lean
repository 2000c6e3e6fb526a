import Verif.Spec.Lengths
import Verif.Lemmas.World
import Verif.Lemmas.AbmReplies
import Verif.Lemmas.PmReplies
import Verif.Lemmas.Tap

/-!
# Lemmas: the lengths of the messages of a run
-/

namespace Mastic

open Spec (vecLen doneLen rangeLen fieldsLen startLens tagLen intLen fieldLen)

/-- The lengths of one call. -/
def callLen (e : IntEnc) (r : Req) (a : Resp) : Nat × Nat := (((reqCodec e).enc r).length, (encResp e r.tag a).length)

/-- The calls have the given lengths. -/
structure Sized (e : IntEnc) (rs : List Req) (as : List Resp) (ls : List (Nat × Nat)) : Prop where
  len : rs.length = as.length
  eq : List.zipWith (callLen e) rs as = ls

variable {e : IntEnc}

theorem Sized.nil : Sized e [] [] [] := ⟨rfl, rfl⟩

theorem Sized.one {r : Req} {a : Resp} {l : Nat × Nat} (h : callLen e r a = l) : Sized e [r] [a] [l] :=
  ⟨rfl, by simp [h]⟩

theorem Sized.append {rs rs' : List Req} {as as' : List Resp} {ls ls' : List (Nat × Nat)} (h : Sized e rs as ls)
    (h' : Sized e rs' as' ls') : Sized e (rs ++ rs') (as ++ as') (ls ++ ls') :=
  ⟨by rw [List.length_append, List.length_append, h.len, h'.len], by rw [List.zipWith_append h.len, h.eq, h'.eq]⟩

theorem Sized.map {α : Type} (f : α → Req) (g : α → Resp) (k : α → Nat × Nat) : ∀ l : List α,
    (∀ x ∈ l, callLen e (f x) (g x) = k x) → Sized e (l.map f) (l.map g) (l.map k)
  | [], _ => .nil
  | a :: l, h => (Sized.one (h a (by simp))).append (Sized.map f g k l fun x hx => h x (by simp [hx]))

theorem Sized.two {α : Type} (f f' : α → Req) (g g' : α → Resp) (k k' : α → Nat × Nat) : ∀ l : List α,
    (∀ x ∈ l, callLen e (f x) (g x) = k x ∧ callLen e (f' x) (g' x) = k' x) →
    Sized e (l.flatMap fun x => [f x, f' x]) (l.flatMap fun x => [g x, g' x]) (l.flatMap fun x => [k x, k' x])
  | [], _ => .nil
  | a :: l, h => by
    simp only [List.flatMap_cons]
    exact ((Sized.one (h a (by simp)).1).append (Sized.one (h a (by simp)).2)).append
      (Sized.two f f' g g' k k' l fun x hx => h x (by simp [hx]))

theorem seenLens_eq {own : Bool} {sent : List (Req × Req)} {g0 g1 : List Resp} {rs : List Req}
    {ls : List (Nat × Nat)} (hl : g0.length = g1.length) (h : Spec.received own sent = rs)
    (hs : Sized e rs (Pair.get (g0, g1) own) ls) : Spec.seenLens e own sent (g0.zip g1) = ls := by
  have hg : (g0.zip g1).map (fun a => Pair.get a own) = Pair.get (g0, g1) own := by
    cases own
    · exact List.map_fst_zip (by omega)
    · exact List.map_snd_zip (by omega)
  unfold Spec.seenLens Spec.carried Spec.returned
  rw [hg, h, ← hs.eq, List.map_map, List.map_zipWith]
  have := hs.len
  generalize Pair.get (g0, g1) own = as at this
  clear hs hg h
  induction rs generalizing as with
  | nil => rfl
  | cons r rs ih =>
    cases as with
    | nil => simp at this
    | cons a as => simpa [callLen] using ih as (by simpa using this)

/-! ### Single messages -/

theorem vec_vecLen {α : Type} (e : IntEnc) (c : Codec α) (k : Nat) (v : List α) (h : ∀ a ∈ v, (c.enc a).length = k) :
    ((Codec.vec e c).enc v).length = vecLen e v.length k := Codec.vec_len e c k v h

theorem fields_len (e : IntEnc) (v : List Field128) : ((Codec.vec e (Codec.field e)).enc v).length = fieldsLen e v.length :=
  vec_vecLen e _ _ v fun x _ => Codec.field_len e x

theorem bools_len (e : IntEnc) (v : List Bool) : ((Codec.vec e Codec.bool).enc v).length = vecLen e v.length 1 :=
  vec_vecLen e _ _ v fun _ _ => rfl

theorem bytes_len (e : IntEnc) (v : List Byte) : ((Codec.vec e Codec.byte).enc v).length = vecLen e v.length 1 :=
  vec_vecLen e _ _ v fun _ _ => rfl

theorem req_len (e : IntEnc) (r : Req) : ((reqCodec e).enc r).length = tagLen e + (r.encBody e).length := by
  simp only [reqCodec, List.length_append]
  rw [Codec.tag_len e _ (by cases r <;> simp [Req.tag])]

theorem resp_len (e : IntEnc) (r : Req) (a : Resp) : (encResp e r.tag a).length = tagLen e + (a.encBody e).length := by
  simp only [encResp, List.length_append]
  rw [Codec.tag_len e _ (by cases r <;> simp [Req.tag])]

theorem done_len (e : IntEnc) (r : Req) : (encResp e r.tag .done).length = doneLen e := by
  rw [resp_len, Resp.encBody, bytes_len]; rfl

theorem range_len (e : IntEnc) (s t : Nat) : ((rangeCodec e).enc (s, t)).length = intLen e s + intLen e t := by
  simp only [rangeCodec, Codec.pair, List.length_append, Codec.u64_len]

theorem fieldVecs_len (e : IntEnc) (r : Req) (k : Nat) (v : List (List Field128)) (h : ∀ x ∈ v, x.length = k) :
    (encResp e r.tag (.fieldVecs v)).length = tagLen e + vecLen e v.length (fieldsLen e k) := by
  rw [resp_len, Resp.encBody, vec_vecLen e _ (fieldsLen e k) v fun x hx => by rw [fields_len, h x hx]]

theorem crawl_len (e : IntEnc) (r : Req) (k : Nat) (v : List (List Field128)) (root : Block) (h : ∀ x ∈ v, x.length = k) :
    (encResp e r.tag (crawlReply v [(root, 0)])).length
      = tagLen e + (vecLen e v.length (fieldsLen e k) + (vecLen e 1 (intLen e 16 + 16) + vecLen e 1 (intLen e 0))) := by
  rw [resp_len, crawlReply, Resp.encBody]
  simp only [Codec.crawlResp, Codec.via, Codec.pair, List.length_append]
  rw [vec_vecLen e _ (fieldsLen e k) v fun x hx => by rw [fields_len, h x hx],
    vec_vecLen e (Codec.bytes16 e) (intLen e 16 + 16) _ fun x _ => by
      simp [Codec.bytes16, Codec.u64_len],
    vec_vecLen e (Codec.u64 e) (intLen e 0) _ fun x hx => by
      rw [Codec.u64_len]
      simp at hx
      rw [hx]]
  rfl

/-! ### Start -/

/-- The sizes of the batches. -/
def cuts (b n : Nat) : List Nat := (Spec.batches n b).map fun r => r.2 - r.1

theorem cuts_zero {b : Nat} (hb : 1 ≤ b) : cuts b 0 = [] := by
  have : (0 + b - 1) / b = 0 := Nat.div_eq_of_lt (by omega)
  rw [cuts, Spec.batches, this]
  rfl

theorem cuts_pos {b n : Nat} (hb : 1 ≤ b) (hn : 1 ≤ n) : cuts b n = min n b :: cuts b (n - b) := by
  have hk : (n + b - 1) / b = (n - b + b - 1) / b + 1 := by
    by_cases h : b ≤ n
    · rw [show n + b - 1 = n - b + b - 1 + b by omega, Nat.add_div_right _ (by omega)]
    · rw [show n - b + b - 1 = b - 1 by omega, Nat.div_eq_of_lt (show b - 1 < b by omega),
        show n + b - 1 = (n - 1) + b by omega, Nat.add_div_right _ (by omega), Nat.div_eq_of_lt (by omega)]
  unfold cuts Spec.batches
  rw [hk, List.range_succ_eq_map, List.map_cons, List.map_cons, List.map_map, List.map_map, List.map_map]
  congr 1
  · simp
  · refine List.map_congr_left fun k _ => ?_
    simp only [Function.comp, Nat.succ_eq_add_one, Nat.add_mul, Nat.one_mul]
    omega

theorem batchRound_cuts {b : Nat} (hb : 1 ≤ b) : ∀ k left : Nat,
    (batchRound b k left).1 ++ cuts b (batchRound b k left).2 = cuts b left
  | 0, left => rfl
  | k + 1, left => by
    have ih := batchRound_cuts hb k (left - min left b)
    simp only [batchRound]
    split
    · next h =>
      rw [List.cons_append, ih, cuts_pos hb (n := left) (by omega)]
      congr 2
      omega
    · next h =>
      rw [ih]
      congr 1
      omega

theorem uploadBatches_cuts {b : Nat} (hb : 1 ≤ b) : ∀ (fuel n : Nat) {sizes : List Nat},
    uploadBatches b fuel n = .ok sizes → sizes = cuts b n
  | fuel, 0, sizes, h => by
    have : uploadBatches b fuel 0 = .ok [] := by cases fuel <;> rfl
    rw [this] at h
    cases h
    exact (cuts_zero hb).symm
  | 0, n + 1, sizes, h => by cases h
  | fuel + 1, n + 1, sizes, h => by
    rw [uploadBatches] at h
    obtain ⟨rest, h1, h2⟩ := bind_eq_ok.1 h
    cases h2
    rw [uploadBatches_cuts hb fuel _ h1]
    exact batchRound_cuts hb _ _

/-- The reset and the upload. -/
theorem sized_start {cfg : Config} {draw : MainDraw} {n share : Nat} {sizes : List Nat} {shares : List ReportShare}
    (hb : 1 ≤ cfg.addBatch) (hsz : uploadBatches cfg.addBatch n n = .ok sizes) (hn : shares.length = n)
    (hsh : ∀ s ∈ shares, ((Codec.reportShare e).enc s).length = share) :
    Sized e (.reset draw.verifyKey cfg.histBuckets :: (splitBatches sizes shares).map .addReportShares)
      (.done :: sizes.map fun _ => .done) (startLens e cfg.histBuckets n cfg.addBatch share) := by
  have hcut := uploadBatches_cuts hb _ _ hsz
  have hsum : sizes.sum = shares.length := by rw [uploadBatches_total hsz, hn]
  unfold startLens
  refine Sized.append (rs := [_]) (as := [_]) (ls := [_]) (.one ?_) ?_
  · unfold callLen
    rw [req_len, done_len, Req.encBody]
    simp only [Codec.pair, List.length_append, Codec.array_len, Codec.u64_len]
  · have key : ∀ (sizes : List Nat) (shares : List ReportShare), sizes.sum = shares.length →
        (∀ s ∈ shares, ((Codec.reportShare e).enc s).length = share) →
        Sized e ((splitBatches sizes shares).map .addReportShares) (sizes.map fun _ => .done)
          (sizes.map fun k => (tagLen e + vecLen e k share, doneLen e)) := by
      intro sizes
      induction sizes with
      | nil => intro _ _ _; exact .nil
      | cons k ks ih =>
        intro shares hs hsh
        rw [List.sum_cons] at hs
        rw [splitBatches, List.map_cons, List.map_cons, List.map_cons]
        refine Sized.append (rs := [_]) (as := [_]) (ls := [_]) (.one ?_)
          (ih _ (by rw [List.length_drop]; omega) fun s hs => hsh s (List.mem_of_mem_drop hs))
        unfold callLen
        rw [req_len, done_len, Req.encBody, vec_vecLen e _ share _ fun s hs => hsh s (List.mem_of_mem_take hs),
          List.length_take, min_eq_left (by omega)]
    have := key sizes shares hsum hsh
    rw [hcut, cuts, List.map_map, List.map_map] at this
    rw [hcut, cuts, List.map_map]
    exact this

/-! ### Weighted heavy hitters -/

theorem kids_length (paths : List (List Bool)) : (kids paths).length = 2 * paths.length := by
  unfold kids
  induction paths with
  | nil => rfl
  | cons p ps ih => rw [List.flatMap_cons, List.length_append, ih]; simp; omega

variable {P : Prims}

theorem merkleRoots_single {l : List Block} {rs : List (Block × Nat)} (h : merkleRoots P l 1 [] false = .ok rs) :
    ∃ root, rs = [(root, 0)] := by
  simp only [merkleRoots, Bool.false_eq_true, if_false, one_ne_zero, if_true] at h
  obtain ⟨c, -, h⟩ := bind_eq_ok.1 h
  obtain ⟨c, -, h⟩ := bind_eq_ok.1 h
  obtain ⟨r, -, h⟩ := bind_eq_ok.1 h
  cases h
  exact ⟨r, rfl⟩

theorem verifierOf_length {n v : Nat} {id : Int} {vk : Block} {s : ReportShare} {x : List Field128}
    (hv : Spec.VerifierLen P n v) (h : Spec.verifierOf P n id vk s = some x) : x.length = v := by
  cases s with
  | prio3 => cases h
  | mastic nonce key proof parts =>
    simp only [Spec.verifierOf, Option.bind_eq_bind, Option.bind_eq_some_iff] at h
    obtain ⟨_, -, _, -, h⟩ := h
    exact hv _ _ _ _ _ h

theorem lastProofs_length {n d b l : Nat} {shares : List ReportShare} (paths : List (List Bool))
    (h : ∀ s ∈ shares, MasticShape d b l s) :
    (lastProofs P n (shares.map fun s => (true, s)) paths).length = shares.length := by
  unfold lastProofs
  rw [included_filterMap, List.filterMap_map]
  induction shares with
  | nil => rfl
  | cons s ss ih =>
    have hs := h s (by simp)
    cases s with
    | prio3 => exact hs.elim
    | mastic nonce key proof parts =>
      rw [List.filterMap_cons, List.length_cons, ← ih fun x hx => h x (by simp [hx])]
      rfl

theorem decisions_length (T : Nat) (strings : List (Option (List Bool))) (m : Nat) :
    (Spec.decisions T strings m).length = 2 * (Spec.heavyAt T strings m).length := by
  rw [Spec.decisions, List.length_map]
  exact kids_length _

theorem sized_whh {T b d n v nb : Nat} {strings : List (Option (List Bool))} {ver : List (List Field128)}
    {agg : List Bool → List Field128} {rs : Nat → List (Block × Nat)} {pf : List Block}
    (hb : 1 ≤ b) (hd : 1 ≤ d) (hn : strings.length = n) (hver : ver.length = n) (hv : ∀ x ∈ ver, x.length = v)
    (hagg : ∀ p, p ≠ [] → p.length ≤ d → (agg p).length = nb + 1) (hr : ∀ m < d - 1, ∃ root, rs m = [(root, 0)])
    (hpf : pf.length = n) :
    Sized e (Spec.whhScript T b d strings) (whhReplies T b d strings ver agg rs pf)
      ([(tagLen e, doneLen e)]
    ++ (Spec.batches n b).map (fun r => (rangeLen e r, tagLen e + vecLen e (r.2 - r.1) (fieldsLen e v)))
    ++ [(tagLen e + vecLen e n 1, doneLen e)]
    ++ (List.range (d - 1)).flatMap (fun m =>
      [(tagLen e + (intLen e 1 + (intLen e 0 + 1)),
          tagLen e + (vecLen e (2 * (Spec.heavyAt T strings m).length) (fieldsLen e (nb + 1))
            + (vecLen e 1 (intLen e 16 + 16) + vecLen e 1 (intLen e 0)))),
        (tagLen e + vecLen e (2 * (Spec.heavyAt T strings m).length) 1, doneLen e)])
    ++ [(tagLen e, tagLen e + vecLen e (2 * (Spec.heavyAt T strings (d - 1)).length) (fieldsLen e (nb + 1)))]
    ++ (Spec.batches n b).map (fun r => (rangeLen e r, tagLen e + vecLen e (r.2 - r.1) 16))
    ++ [(tagLen e + vecLen e (2 * (Spec.heavyAt T strings (d - 1)).length) 1, doneLen e),
        (tagLen e, tagLen e + vecLen e (Spec.heavyAt T strings d).length (vecLen e d 1 + fieldsLen e (nb + 1)))]) := by
  have hkid : ∀ m < d, ∀ x ∈ (kids (Spec.heavyAt T strings m)).map agg, x.length = nb + 1 := by
    intro m hm x hx
    obtain ⟨p, hp, rfl⟩ := List.mem_map.1 hx
    obtain ⟨q, hq, hp⟩ := List.mem_flatMap.1 hp
    have hql : q.length = m := mem_allPaths.1 (List.mem_filter.1 hq).1
    refine hagg p ?_ ?_
    · rintro rfl; simp at hp
    · simp at hp
      rcases hp with rfl | rfl <;> simp <;> omega
  have hrange : ∀ r ∈ Spec.batches n b, r.1 < r.2 ∧ r.2 ≤ n := fun r hr => mem_batches hb hr
  unfold Spec.whhScript whhReplies
  rw [hn]
  refine ((((((Sized.append ?_ ?_).append ?_).append ?_).append ?_).append ?_).append ?_)
  · refine .one ?_
    unfold callLen
    rw [req_len, done_len]; rfl
  · refine Sized.map _ _ _ _ fun r hr => ?_
    unfold callLen
    rw [req_len, Req.encBody, range_len, fieldVecs_len e _ v _ fun x hx =>
      hv x (List.mem_of_mem_drop (List.mem_of_mem_take hx)), List.length_take, List.length_drop, hver,
      min_eq_left (by have := hrange r hr; omega)]
    rfl
  · refine .one ?_
    unfold callLen
    rw [req_len, done_len, Req.encBody, bools_len, List.length_map, hn]
  · refine Sized.two _ _ _ _ _ _ _ fun m hm => ?_
    have hm := List.mem_range.1 hm
    obtain ⟨root, hroot⟩ := hr m hm
    unfold callLen
    rw [hroot, crawl_len e _ (nb + 1) _ root (hkid m (by omega)), req_len, req_len, done_len, List.length_map, kids_length,
      Req.encBody, Req.encBody, bools_len, decisions_length]
    refine ⟨?_, rfl⟩
    simp only [Codec.pair, List.length_append, Codec.u64_len]
    rw [vec_vecLen e (Codec.u64 e) 0 [] fun x hx => by simp at hx]
    simp [vecLen, Codec.bool]
  · refine .one ?_
    unfold callLen
    rw [req_len, fieldVecs_len e _ (nb + 1) _ (hkid (d - 1) (by omega)), List.length_map, kids_length]
    rfl
  · refine Sized.map _ _ _ _ fun r hr => ?_
    have h := hrange r hr
    unfold callLen
    rw [req_len, Req.encBody, range_len, proofReply, if_pos ⟨h.1, by omega⟩, resp_len, Resp.encBody,
      vec_vecLen e _ 16 _ fun x _ => Codec.array_len x, List.length_take, List.length_drop, hpf, min_eq_left (by omega)]
    rfl
  · refine Sized.append (rs := [_]) (as := [_]) (ls := [_]) (.one ?_) (.one ?_)
    · unfold callLen
      rw [req_len, done_len, Req.encBody, bools_len, decisions_length]
    · unfold callLen
      rw [req_len, resp_len, Resp.encBody, vec_vecLen e _ (vecLen e d 1 + fieldsLen e (nb + 1)) _ (by
        intro x hx
        obtain ⟨p, hp, rfl⟩ := List.mem_map.1 hx
        have hpl : p.length = d := mem_allPaths.1 (List.mem_filter.1 hp).1
        simp only [Codec.hhResult, Codec.via, Codec.pair, List.length_append]
        rw [bools_len, fields_len, hpl, hagg p (by rintro rfl; simp at hpl; omega) (by omega)]), List.length_map]
      rfl

/-- The reports of a run with Mastic reports. -/
theorem mastic_shapes {cfg : Config} {draw : MainDraw} {n d l : Nat}
    {sh : List (ReportShare × ReportShare)} (hl : Spec.ProofLen P cfg.histBuckets l)
    (hlen : sh.length = n)
    (hsh : ∀ i < n, ∃ ks p0 p ps jr, genMasticReport P cfg.histBuckets
          (Spec.drawn cfg.histBuckets d (Spec.MainDraw.of draw i)).1
          (Spec.drawn cfg.histBuckets d (Spec.MainDraw.of draw i)).2 (Spec.MainDraw.of draw i).rand
          = .ok (.mastic (Spec.MainDraw.of draw i).rand.nonce ks (p0, p :: ps) jr
              (Spec.drawn cfg.histBuckets d (Spec.MainDraw.of draw i)).1) ∧
        sh[i]? = some (.mastic (Spec.MainDraw.of draw i).rand.nonce ks.1 p0 jr,
          .mastic (Spec.MainDraw.of draw i).rand.nonce ks.2 (sentProof (draw.picks i).2 p ps) jr)) :
    ∀ own, ∀ s ∈ sh.map fun s => Pair.get s own, MasticShape d cfg.histBuckets l s := by
  intro own s hs
  obtain ⟨q, hq, rfl⟩ := List.mem_map.1 hs
  obtain ⟨i, hi⟩ := List.getElem?_of_mem hq
  have hin : i < n := hlen ▸ (List.getElem?_eq_some_iff.1 hi).1
  obtain ⟨ks, p0, p, ps, jr, hg, e⟩ := hsh i hin
  rw [hi] at e
  cases e
  have h := gen_reportShape hl hg
  have hd : (Spec.drawn cfg.histBuckets d (Spec.MainDraw.of draw i)).1.length = d := by simp [Spec.drawn]
  rw [hd] at h
  obtain ⟨⟨a0, a1⟩, b0, b1⟩ := h
  cases own with
  | false => exact ⟨a0, a1⟩
  | true =>
    refine ⟨b0, ?_⟩
    rw [← b1]
    unfold sentProof
    split <;> simp only [List.length_cons]

/-- The strings and weights of a draw in which nobody changes a proof. -/
theorem mainClients_honest {cfg : Config} {draw : MainDraw} {n d : Nat} (htam : ∀ i < n, (draw.picks i).2 ≠ some .flp) :
    Spec.mainClients cfg.histBuckets d draw n
      = (Spec.runClients d draw (fun j => (draw.reports j).bucket % cfg.histBuckets) n).map some := by
  unfold Spec.mainClients Spec.runClients
  rw [List.map_map]
  refine List.map_congr_left fun i hi => ?_
  have := htam i (List.mem_range.1 hi)
  show (match (draw.picks i).2 with | some .flp => none | _ => _) = _
  split
  · rename_i h; exact absurd h this
  · rfl

/-! ### The other modes -/

theorem sized_abm {b n d v k nb : Nat} {attrs : List (List Bool)} {V : Nat → List (List Field128)}
    {q : Nat → List Field128} {dg : Nat → Vector Byte 32} (hb : 1 ≤ b) (hk : attrs.length = k)
    (hd : ∀ a ∈ attrs, a.length = d) (hq : ∀ i < n, (q i).length = v) :
    Sized e (Spec.abmScript attrs (Spec.batches n b) ((Spec.batches n b).map fun _ => []))
      (abmAnswers attrs.length nb (Spec.batches n b) V q dg)
      ((Spec.batches n b).flatMap fun r =>
        [(tagLen e + (vecLen e k (vecLen e d 1) + (intLen e r.1 + intLen e r.2)),
            tagLen e + vecLen e (r.2 - r.1) (fieldsLen e v + 32)),
          (tagLen e + (intLen e 0 + (intLen e k + (intLen e r.1 + intLen e r.2))), tagLen e + vecLen e k (fieldsLen e nb))]) := by
  have hs : Spec.abmScript attrs (Spec.batches n b) ((Spec.batches n b).map fun _ => [])
      = (Spec.batches n b).flatMap fun r => [.abmValidate attrs r.1 r.2, .abmResult [] attrs.length r.1 r.2] := by
    unfold Spec.abmScript
    generalize Spec.batches n b = L
    induction L with
    | nil => rfl
    | cons a L ih => rw [List.map_cons, List.zip_cons_cons, List.flatMap_cons, List.flatMap_cons, ih]
  rw [hs]
  unfold abmAnswers
  refine Sized.two _ _ _ _ _ _ _ fun r hr => ?_
  obtain ⟨h1, h2⟩ := mem_batches hb hr
  unfold callLen
  constructor
  · rw [req_len, resp_len, Req.encBody, Resp.encBody, vec_vecLen e _ (fieldsLen e v + 32) _ (by
      intro x hx
      obtain ⟨i, hi, rfl⟩ := List.mem_map.1 hx
      obtain ⟨-, g2⟩ := rangeFrom_mem.1 hi
      simp only [Codec.pair, List.length_append]
      rw [fields_len, hq i (by omega), Codec.array_len])]
    simp only [Codec.pair, List.length_append]
    rw [vec_vecLen e _ (vecLen e d 1) _ fun a ha => by rw [bools_len, hd a ha], range_len, hk]
    simp [rangeFrom]
  · rw [req_len, Req.encBody, fieldVecs_len e _ nb _ (by
      intro x hx
      obtain ⟨j, -, rfl⟩ := List.mem_map.1 hx
      simp)]
    simp only [Codec.pair, List.length_append, Codec.u64_len]
    rw [vec_vecLen e (Codec.u64 e) 0 [] (fun x hx => by simp at hx), range_len, hk]
    simp [vecLen, rowSum]

theorem sized_pm {b n nb s : Nat} {F G : Nat → Prio3State × Prio3Share} {O : Nat → List Field128} {Z : Prio3Xof}
    (hb : 1 ≤ b) (hF : ∀ i < n, (prio3EncodeShare (F i).2).length = s) (hG : ∀ i < n, (prio3EncodeShare (G i).2).length = s) :
    Sized e ((Spec.batches n b).flatMap fun r => [.pmValidate r.1 r.2, .pmResult (encoded (P.withPrio3 Z) G r) r.1 r.2])
      ((Spec.batches n b).flatMap fun r => [.bytes (encoded (P.withPrio3 Z) F r), .aggregate (outSum nb O r) 0])
      ((Spec.batches n b).flatMap fun r =>
        [(rangeLen e r, tagLen e + vecLen e (r.2 - r.1) (vecLen e s 1)),
          (tagLen e + (vecLen e (r.2 - r.1) (vecLen e s 1) + (intLen e r.1 + intLen e r.2)),
            tagLen e + (fieldsLen e nb + intLen e 0))]) := by
  refine Sized.two _ _ _ _ _ _ _ fun r hr => ?_
  obtain ⟨h1, h2⟩ := mem_batches hb hr
  have henc : ∀ H : Nat → Prio3State × Prio3Share, (∀ i < n, (prio3EncodeShare (H i).2).length = s) →
      ((Codec.vec e (Codec.vec e Codec.byte)).enc (encoded (P.withPrio3 Z) H r)).length
        = vecLen e (r.2 - r.1) (vecLen e s 1) := by
    intro H hH
    rw [vec_vecLen e _ (vecLen e s 1) _ (by
      intro x hx
      obtain ⟨i, hi, rfl⟩ := List.mem_map.1 hx
      obtain ⟨-, g2⟩ := rangeFrom_mem.1 hi
      rw [bytes_len]
      exact congrArg (vecLen e · 1) (hH i (by omega)))]
    congr 1
    simp [encoded, rangeFrom]
  unfold callLen
  constructor
  · rw [req_len, resp_len, Req.encBody, Resp.encBody, range_len, henc F hF]
    rfl
  · rw [req_len, resp_len, Req.encBody, Resp.encBody]
    simp only [Codec.pair, List.length_append]
    rw [henc G hG, range_len, fields_len, Codec.u64_len]
    simp [outSum]

theorem prep_length {Z : Prio3Xof} {b id : Nat} {vk nonce : Block} {pub inp : List Byte} {x : Prio3State × Prio3Share}
    (h : Z.prepare b (Spec.chunk b) id vk nonce pub inp = some x) :
    (prio3EncodeShare x.2).length = Spec.prepLen b := by
  have := (prepare_lens (st := x.1) (sh := x.2) h).2.2
  simp [prio3EncodeShare, encodeFields_length, this, Spec.prepLen]

/-- Only the remainder of the random number for the bucket matters. -/
theorem mainP_bucketDraw {bld : Build} {cfg : Config} {draw : MainDraw} {n : Nat} :
    mainP P bld cfg .plainMetrics (Spec.bucketDraw draw fun i => (draw.reports i).bucket % cfg.histBuckets) n
      = mainP P bld cfg .plainMetrics draw n := by
  have : generateReports P cfg .plainMetrics
      (Spec.bucketDraw draw fun i => (draw.reports i).bucket % cfg.histBuckets).reports
      = generateReports P cfg .plainMetrics draw.reports := by
    unfold generateReports
    congr 1
    funext _
    congr 1
    refine congrArg (fun f => mapE f _) (funext fun i => ?_)
    unfold generateReport Spec.bucketDraw genRange
    simp only [Nat.mod_mod]
  unfold mainP
  rw [this]
  rfl

theorem vecLen_lt {k k' s : Nat} (hs : 1 ≤ s) (h : k < k') : vecLen e k s < vecLen e k' s := by
  have h1 : intLen e k ≤ intLen e k' := by
    cases e
    · exact le_rfl
    · simp only [intLen]
      split_ifs <;> omega
  have h2 := Nat.mul_lt_mul_of_pos_right h hs
  unfold vecLen
  omega

theorem vecLen_inj {k k' s : Nat} (hs : 1 ≤ s) (h : vecLen e k s = vecLen e k' s) : k = k' := by
  rcases Nat.lt_trichotomy k k' with hk | hk | hk
  · have := vecLen_lt (e := e) hs hk; omega
  · exact hk
  · have := vecLen_lt (e := e) hs hk; omega

/-- What is heard in a run is determined. -/
theorem hears_unique {α : Type} {c0 c1 : ServerCfg} {p : Prog α} {s0 s1 t0 t1 t0' t1' : Server P}
    {sent sent' : List (Req × Req)} {got got' : List (Resp × Resp)} {a a' : α}
    (h : Spec.Hears c0 c1 p s0 s1 sent got a t0 t1) (h' : Spec.Hears c0 c1 p s0 s1 sent' got' a' t0' t1') :
    sent = sent' ∧ got = got' := by
  induction h generalizing sent' got' with
  | ret a s0 s1 =>
    cases h'
    exact ⟨rfl, rfl⟩
  | ask r0 r1 k s0 s1 t0 t1 u0 u1 a0 a1 sent got a h0 h1 h ih =>
    cases h' with
    | ask _ _ _ _ _ v0 v1 _ _ b0 b1 sent' got' _ g0 g1 g =>
      rw [h0] at g0
      rw [h1] at g1
      obtain ⟨rfl, e0⟩ := Prod.mk.inj g0
      obtain ⟨rfl, e1⟩ := Prod.mk.inj g1
      obtain rfl := Except.ok.inj e0
      obtain rfl := Except.ok.inj e1
      obtain ⟨rfl, rfl⟩ := ih g
      exact ⟨rfl, rfl⟩

end Mastic
