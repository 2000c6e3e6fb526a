import Verif.Spec.Frames
import Verif.Lemmas.Lengths

/-!
# Lemmas for C112: a run over connections with a frame limit
-/

namespace Mastic

open Spec (word reqFits respFits shareFits)

/-- The numbers in a request are `usize`s. -/
def reqNums : Req → Bool
  | .reset _ b => word b
  | .addReportShares _ | .applyFlpResults _ | .treePrune _ | .treeInit | .treeCrawlLast | .finalShares => true
  | .treeCrawl s m _ => word s && m.all word
  | .runFlpQueries s t | .getProofs s t | .pmValidate s t => word s && word t
  | .abmValidate _ s t => word s && word t
  | .abmResult rej n s t => rej.all word && word n && word s && word t
  | .pmResult _ s t => word s && word t

/-- The numbers in an answer are `usize`s. -/
def respNums : Resp → Bool
  | .crawl r => r.indices.all word
  | .aggregate _ n => word n
  | _ => true

section Codecs
open Codec
variable {α : Type} {e : IntEnc}

theorem vec_enc_le {c : Codec α} (hc : ∀ a, 1 ≤ (c.enc a).length) (l : List α) :
    l.length ≤ ((vec e c).enc l).length := by
  have : l.length ≤ ((l.map c.enc).flatten).length := by
    induction l with
    | nil => simp
    | cons a l ih =>
      have := hc a
      simp only [List.map_cons, List.flatten_cons, List.length_append, List.length_cons]
      omega
  simp only [vec, List.length_append]
  omega

theorem vec_enc_mem {c : Codec α} {l : List α} {a : α} (ha : a ∈ l) : (c.enc a).length ≤ ((vec e c).enc l).length := by
  have : (c.enc a).length ≤ ((l.map c.enc).flatten).length := by
    obtain ⟨s, t, rfl⟩ := List.append_of_mem ha
    simp only [List.map_append, List.map_cons, List.flatten_append, List.flatten_cons, List.length_append]
    omega
  simp only [vec, List.length_append]
  omega

theorem u64_pos (e : IntEnc) (n : Nat) : 1 ≤ ((u64 e).enc n).length := by
  rw [Codec.u64_len]
  cases e <;> simp only [Spec.intLen] <;> [skip; split_ifs] <;> omega

theorem vec_pos {c : Codec α} (l : List α) : 1 ≤ ((vec e c).enc l).length := by
  have := u64_pos e l.length
  simp only [vec, List.length_append]
  omega

theorem field_pos (x : Field128) : 1 ≤ ((field e).enc x).length := by
  have := u64_pos e 16
  simp only [field, List.length_append]
  omega

theorem word_vec {c : Codec α} (hc : ∀ a, 1 ≤ (c.enc a).length) {l : List α}
    (h : ((vec e c).enc l).length < 2 ^ 64) : word l.length = true := by
  have := vec_enc_le (e := e) hc l
  simp only [word, decide_eq_true_eq]
  omega

theorem all_vec {c : Codec α} {p : α → Bool} (hp : ∀ a, (c.enc a).length < 2 ^ 64 → p a = true) {l : List α}
    (h : ((vec e c).enc l).length < 2 ^ 64) : l.all p = true :=
  List.all_eq_true.2 fun a ha => hp a ((vec_enc_mem ha).trans_lt h)

theorem bool_pos (b : Bool) : 1 ≤ (Codec.bool.enc b).length := by simp [Codec.bool]

theorem byte_pos (b : Byte) : 1 ≤ (Codec.byte.enc b).length := by simp [Codec.byte]

theorem array_pos {n : Nat} (hn : 1 ≤ n) (v : Vector Byte n) : 1 ≤ ((array n).enc v).length := by simpa [array] using hn

theorem share_pos (s : ReportShare) : 1 ≤ ((reportShare e).enc s).length := by
  cases s
  · simp only [reportShare, List.length_append]
    rw [Codec.tag_len e _ (by omega)]
    cases e <;> simp only [Spec.tagLen] <;> omega
  · simp only [reportShare, List.length_append]
    rw [Codec.tag_len e _ (by omega)]
    cases e <;> simp only [Spec.tagLen] <;> omega

theorem share_fits {s : ReportShare} (h : ((reportShare e).enc s).length < 2 ^ 64) : shareFits s = true := by
  cases s with
  | mastic n k p j =>
    simp only [reportShare, masticShare, pair, vidpfKey, via, List.length_append] at h
    simp only [shareFits, Bool.and_eq_true]
    refine ⟨⟨⟨?_, ?_⟩, ?_⟩, ?_⟩
    · refine word_vec (e := e) (c := corWord e) (fun w => ?_) (by omega)
      simp only [corWord, via, pair, List.length_append, array]
      simp
      omega
    · exact word_vec (e := e) (c := array 16) (array_pos (by omega)) (by omega)
    · refine all_vec (e := e) (c := corWord e) (fun w hw => ?_) (by omega)
      simp only [corWord, via, pair, List.length_append] at hw
      exact word_vec (e := e) (c := field e) field_pos (by omega)
    · exact word_vec (e := e) (c := field e) field_pos (by omega)
  | prio3 n pub inp =>
    simp only [reportShare, prio3Share, pair, List.length_append] at h
    simp only [shareFits, Bool.and_eq_true]
    exact ⟨word_vec (e := e) (c := byte) byte_pos (by omega), word_vec (e := e) (c := byte) byte_pos (by omega)⟩

theorem reqFits_of_length {r : Req} (hn : reqNums r = true) (h : ((reqCodec e).enc r).length < 2 ^ 64) :
    reqFits r = true := by
  cases r <;> simp only [reqCodec, Req.encBody, pair, rangeCodec, List.length_append] at h <;>
    simp only [reqNums, Bool.and_eq_true] at hn <;> simp only [reqFits, Bool.and_eq_true]
  case reset => exact hn
  case addReportShares =>
    exact ⟨word_vec (e := e) (c := reportShare e) share_pos (by omega),
      all_vec (e := e) (c := reportShare e) (fun _ => share_fits) (by omega)⟩
  case runFlpQueries => exact hn
  case applyFlpResults => exact word_vec (e := e) bool_pos (by omega)
  case treeCrawl => exact ⟨⟨hn.1, word_vec (e := e) (u64_pos e) (by omega)⟩, hn.2⟩
  case getProofs => exact hn
  case treePrune => exact word_vec (e := e) bool_pos (by omega)
  case abmValidate =>
    exact ⟨⟨⟨word_vec (e := e) (c := vec e bool) vec_pos (by omega),
      all_vec (e := e) (c := vec e bool) (fun _ g => word_vec bool_pos g) (by omega)⟩, hn.1⟩, hn.2⟩
  case abmResult => exact ⟨⟨⟨⟨word_vec (e := e) (u64_pos e) (by omega), hn.1.1.1⟩, hn.1.1.2⟩, hn.1.2⟩, hn.2⟩
  case pmValidate => exact hn
  case pmResult =>
    exact ⟨⟨⟨word_vec (e := e) (c := vec e byte) vec_pos (by omega),
      all_vec (e := e) (c := vec e byte) (fun _ g => word_vec byte_pos g) (by omega)⟩, hn.1⟩, hn.2⟩

theorem respFits_of_length {t : Nat} {a : Resp} (hn : respNums a = true) (h : (encResp e t a).length < 2 ^ 64) :
    respFits a = true := by
  have hf : ∀ x : List Field128, ((vec e (field e)).enc x).length < 2 ^ 64 → word x.length = true :=
    fun x g => word_vec (e := e) field_pos g
  cases a <;> simp only [encResp, Resp.encBody, List.length_append] at h <;>
    simp only [respNums] at hn <;> simp only [respFits, Bool.and_eq_true]
  case crawl =>
    simp only [crawlResp, via, pair, List.length_append] at h
    refine ⟨⟨⟨⟨word_vec (e := e) (c := vec e (field e)) vec_pos (by omega),
      all_vec (e := e) (c := vec e (field e)) hf (by omega)⟩, word_vec (e := e) (c := bytes16 e) (fun a => ?_) (by omega)⟩,
      word_vec (e := e) (u64_pos e) (by omega)⟩, hn⟩
    have := u64_pos e 16
    simp only [bytes16, List.length_append]
    omega
  case fieldVecs =>
    exact ⟨word_vec (e := e) (c := vec e (field e)) vec_pos (by omega),
      all_vec (e := e) (c := vec e (field e)) hf (by omega)⟩
  case proofs => exact word_vec (e := e) (c := array 16) (array_pos (by omega)) (by omega)
  case shares =>
    refine ⟨word_vec (e := e) (c := hhResult e) (fun a => ?_) (by omega),
      all_vec (e := e) (c := hhResult e) (fun a g => ?_) (by omega)⟩
    · have := vec_pos (e := e) (c := bool) a.path
      simp only [hhResult, via, pair, List.length_append]
      omega
    · simp only [hhResult, via, pair, List.length_append] at g
      simp only [Bool.and_eq_true]
      exact ⟨word_vec (e := e) bool_pos (by omega), hf _ (by omega)⟩
  case validated =>
    refine ⟨word_vec (e := e) (c := pair (vec e (field e)) (array 32)) (fun a => ?_) (by omega),
      all_vec (e := e) (c := pair (vec e (field e)) (array 32)) (fun a g => ?_) (by omega)⟩
    · have := vec_pos (e := e) (c := field e) a.1
      simp only [pair, List.length_append]
      omega
    · simp only [pair, List.length_append] at g
      exact hf _ (by omega)
  case bytes =>
    exact ⟨word_vec (e := e) (c := vec e byte) vec_pos (by omega),
      all_vec (e := e) (c := vec e byte) (fun _ g => word_vec byte_pos g) (by omega)⟩
  case aggregate =>
    simp only [pair, List.length_append] at h
    exact ⟨hf _ (by omega), hn⟩

end Codecs

variable {P : Prims} {α : Type} {n0 n1 : Net} {c0 c1 : ServerCfg}

/-- The request and the answer are within the frame limit. -/
def shortCall (net : Net) (r : Req) (a : Resp) : Prop :=
  net.reqExtra + ((reqCodec .varint).enc r).length ≤ net.limit ∧
    net.respExtra + (encResp .varint r.tag a).length ≤ net.limit

theorem netCall_short {net : Net} {cfg : ServerCfg} {s t : Server P} {r : Req} {a : Resp}
    (h : s.handle cfg r = (t, .ok a)) (hl : net.limit < 2 ^ 64) (hr : reqNums r = true) (ha : respNums a = true)
    (hs : shortCall net r a) : netCall net cfg s r = (t, .ok a) := by
  rw [netCall_eq, h]
  obtain ⟨h1, h2⟩ := hs
  simp only [Spec.callFits, h, Bool.and_eq_true, decide_eq_true_eq]
  exact ⟨⟨reqFits_of_length (e := .varint) hr (by omega), h1⟩, respFits_of_length (e := .varint) (t := r.tag) ha (by omega), h2⟩

theorem netCall_long {net : Net} {cfg : ServerCfg} {s t : Server P} {r : Req} {a : Resp}
    (h : s.handle cfg r = (t, .ok a)) (hl : net.limit < 2 ^ 64) (hr : reqNums r = true)
    (hs : ¬ shortCall net r a) : (netCall net cfg s r).2 = .error .unwrap := by
  rw [netCall]
  split_ifs with h1
  · rfl
  · have hd := Codec.req_lawful .varint r (reqFits_of_length (e := .varint) hr (by omega)) []
    rw [List.append_nil] at hd
    rw [hd]
    simp only [h]
    rw [if_pos]
    by_contra h2
    exact hs ⟨by omega, by omega⟩

theorem inFrames_cons {net : Net} {own : Bool} {r : Req × Req} {a : Resp × Resp} {sent : List (Req × Req)}
    {got : List (Resp × Resp)} :
    Spec.inFrames net (Spec.seenLens .varint own (r :: sent) (a :: got)) ↔
      shortCall net (Pair.get r own) (Pair.get a own) ∧ Spec.inFrames net (Spec.seenLens .varint own sent got) := by
  simp only [Spec.inFrames, Spec.seenLens, Spec.carried, Spec.returned, Spec.received, List.map_cons, List.zipWith_cons_cons,
    List.zip_cons_cons, List.forall_mem_cons, shortCall]

/-- A conversation takes place over two connections if and only if no message is too long, else the driver panics. -/
theorem netRun_of_hears {p : Prog α} {s0 s1 t0 t1 : Server P} {sent : List (Req × Req)} {got : List (Resp × Resp)} {a : α}
    (h : Spec.Hears c0 c1 p s0 s1 sent got a t0 t1) (hl0 : n0.limit < 2 ^ 64) (hl1 : n1.limit < 2 ^ 64)
    (hs : ∀ r ∈ sent, reqNums r.1 = true ∧ reqNums r.2 = true) (hg : ∀ b ∈ got, respNums b.1 = true ∧ respNums b.2 = true) :
    (Spec.inFrames n0 (Spec.seenLens .varint false sent got) ∧ Spec.inFrames n1 (Spec.seenLens .varint true sent got) →
      p.netRun n0 n1 c0 c1 (s0, s1) = .ok (a, t0, t1)) ∧
    (¬ (Spec.inFrames n0 (Spec.seenLens .varint false sent got) ∧
        Spec.inFrames n1 (Spec.seenLens .varint true sent got)) →
      p.netRun n0 n1 c0 c1 (s0, s1) = .error .unwrap) := by
  induction h with
  | ret a s0 s1 =>
    refine ⟨fun _ => rfl, fun h => absurd ?_ h⟩
    simp [Spec.inFrames, Spec.seenLens, Spec.carried, Spec.received]
  | ask r0 r1 k s0 s1 t0 t1 u0 u1 a0 a1 sent got a h0 h1 h ih =>
    rw [List.forall_mem_cons] at hs hg
    obtain ⟨i1, i2⟩ := ih hs.2 hg.2
    rw [inFrames_cons, inFrames_cons]
    have q0 := netCall_short h0 hl0 hs.1.1 hg.1.1
    have q1 := netCall_short h1 hl1 hs.1.2 hg.1.2
    have l0 := netCall_long h0 hl0 hs.1.1
    have l1 := netCall_long h1 hl1 hs.1.2
    constructor
    · rintro ⟨⟨g0, g0'⟩, g1, g1'⟩
      rw [Prog.netRun, q0 g0, q1 g1]
      exact i1 ⟨g0', g1'⟩
    · intro hn
      rw [Prog.netRun]
      by_cases g0 : shortCall n0 r0 a0
      · by_cases g1 : shortCall n1 r1 a1
        · rw [q0 g0, q1 g1]
          exact i2 fun hh => hn ⟨⟨g0, hh.1⟩, g1, hh.2⟩
        · rw [q0 g0, l1 g1]
      · rw [l0 g0]

/-! ### The numbers in a run -/

theorem batches_word {n q : Nat} (hn : n < 2 ^ 64) (hq : 1 ≤ q) {r : Nat × Nat} (hr : r ∈ Spec.batches n q) :
    word r.1 = true ∧ word r.2 = true := by
  obtain ⟨k, hk, rfl⟩ := List.mem_map.1 hr
  have h1 : (k + 1) * q ≤ n + q - 1 := (Nat.le_div_iff_mul_le hq).1 (List.mem_range.1 hk)
  rw [Nat.succ_mul] at h1
  simp only [word, decide_eq_true_eq]
  omega

theorem whhScript_nums {T q d : Nat} {strings : List (Option (List Bool))} (hn : strings.length < 2 ^ 64) (hq : 1 ≤ q)
    {r : Req} (hr : r ∈ Spec.whhScript T q d strings) : reqNums r = true := by
  simp only [Spec.whhScript, List.mem_append, List.mem_map, List.mem_flatMap, List.mem_cons, List.not_mem_nil,
    or_false] at hr
  rcases hr with (((((rfl | ⟨x, hx, rfl⟩) | rfl) | ⟨m, -, rfl | rfl⟩) | rfl) | ⟨x, hx, rfl⟩) | rfl | rfl <;> try rfl
  · simp only [reqNums, Bool.and_eq_true]
    exact batches_word hn hq hx
  · simp only [reqNums, Bool.and_eq_true]
    exact batches_word hn hq hx

theorem whhReplies_nums {T q d : Nat} {strings : List (Option (List Bool))} {ver : List (List Field128)}
    {agg : List Bool → List Field128} {rs : Nat → List (Block × Nat)} {pf : List Block}
    (hrs : ∀ m < d - 1, ∃ root, rs m = [(root, 0)]) {a : Resp} (ha : a ∈ whhReplies T q d strings ver agg rs pf) :
    respNums a = true := by
  simp only [whhReplies, List.mem_append, List.mem_map, List.mem_flatMap, List.mem_cons, List.not_mem_nil,
    or_false] at ha
  rcases ha with (((((rfl | ⟨x, hx, rfl⟩) | rfl) | ⟨m, hm, rfl | rfl⟩) | rfl) | ⟨x, hx, rfl⟩) | rfl | rfl <;> try rfl
  obtain ⟨root, h⟩ := hrs m (List.mem_range.1 hm)
  simp [crawlReply, respNums, h, word]

theorem sent_nums {sent : List (Req × Req)} (h : ∀ own, ∀ r ∈ Spec.received own sent, reqNums r = true) :
    ∀ r ∈ sent, reqNums r.1 = true ∧ reqNums r.2 = true := fun r hr =>
  ⟨h false _ (List.mem_map.2 ⟨r, hr, rfl⟩), h true _ (List.mem_map.2 ⟨r, hr, rfl⟩)⟩

theorem zip_nums {g0 g1 : List Resp} (h0 : ∀ a ∈ g0, respNums a = true) (h1 : ∀ a ∈ g1, respNums a = true) :
    ∀ b ∈ g0.zip g1, respNums b.1 = true ∧ respNums b.2 = true := fun _ hb =>
  ⟨h0 _ (List.of_mem_zip hb).1, h1 _ (List.of_mem_zip hb).2⟩

theorem runReceived_nums {cfg : Config} {draw : MainDraw} {sizes : List Nat} {shares : List ReportShare} {script : List Req}
    (hb : cfg.histBuckets < 2 ^ 64) (hs : ∀ r ∈ script, reqNums r = true) :
    ∀ r ∈ runReceived cfg draw sizes shares script, reqNums r = true := by
  intro r hr
  simp only [runReceived, List.mem_cons, List.mem_append, List.mem_map] at hr
  rcases hr with rfl | ⟨x, -, rfl⟩ | hr
  · simpa [reqNums, word] using hb
  · rfl
  · exact hs r hr

theorem runReplies_nums {cfg : Config} {draw : MainDraw} {n d : Nat} {sizes : List Nat} {shares : List ReportShare}
    {ver : List (List Field128)} {rs : Nat → List (Block × Nat)} (hrs : ∀ m < d - 1, ∃ root, rs m = [(root, 0)]) :
    ∀ a ∈ runReplies P cfg draw n d sizes shares ver rs, respNums a = true := by
  intro a ha
  simp only [runReplies, List.mem_cons, List.mem_append, List.mem_map] at ha
  rcases ha with rfl | ⟨x, -, rfl⟩ | ha
  · rfl
  · rfl
  · exact whhReplies_nums hrs ha

theorem abmScript_nums {attributes : List (List Bool)} {n q : Nat} {rejected : List (List Nat)} (hn : n < 2 ^ 64)
    (hq : 1 ≤ q) (ha : attributes.length < 2 ^ 64) (hr : ∀ x ∈ rejected, x = []) :
    ∀ r ∈ Spec.abmScript attributes (Spec.batches n q) rejected, reqNums r = true := by
  intro r h
  simp only [Spec.abmScript, List.mem_flatMap, List.mem_cons, List.not_mem_nil, or_false] at h
  obtain ⟨x, hx, rfl | rfl⟩ := h
  · simp only [reqNums, Bool.and_eq_true]
    exact batches_word hn hq (List.of_mem_zip hx).1
  · simp only [reqNums, hr _ (List.of_mem_zip hx).2, List.all_nil, Bool.true_and, Bool.and_eq_true]
    refine ⟨⟨?_, (batches_word hn hq (List.of_mem_zip hx).1).1⟩, (batches_word hn hq (List.of_mem_zip hx).1).2⟩
    simpa [word] using ha

theorem abmAnswers_nums {m n : Nat} {rs : List (Nat × Nat)} {V : Nat → List (List Field128)} {q : Nat → List Field128}
    {dg : Nat → Vector Byte 32} {sizes : List Nat} :
    ∀ a ∈ Resp.done :: ((sizes.map fun _ => Resp.done) ++ abmAnswers m n rs V q dg), respNums a = true := by
  intro a ha
  simp only [abmAnswers, List.mem_cons, List.mem_append, List.mem_map, List.mem_flatMap, List.not_mem_nil, or_false] at ha
  rcases ha with rfl | ⟨x, -, rfl⟩ | ⟨x, -, rfl | rfl⟩ <;> rfl

theorem pmReceived_nums {cfg : Config} {draw : MainDraw} {n : Nat} {sizes : List Nat} {shares : List ReportShare}
    {peers : Nat × Nat → List (List Byte)} (hb : cfg.histBuckets < 2 ^ 64) (hn : n < 2 ^ 64) (hq : 1 ≤ cfg.queryBatch) :
    ∀ r ∈ pmReceived cfg draw n sizes shares peers, reqNums r = true := by
  refine runReceived_nums hb fun r hr => ?_
  simp only [List.mem_flatMap, List.mem_cons, List.not_mem_nil, or_false] at hr
  obtain ⟨x, hx, rfl | rfl⟩ := hr
  · simp only [reqNums, Bool.and_eq_true]
    exact batches_word hn hq hx
  · simp only [reqNums, Bool.and_eq_true]
    exact batches_word hn hq hx

theorem pmReplies_nums {cfg : Config} {n : Nat} {sizes : List Nat} {F : Nat → P.PrepState × P.PrepShare}
    {O : Nat → List Field128} : ∀ a ∈ pmReplies P cfg n sizes F O, respNums a = true := by
  intro a ha
  simp only [pmReplies, List.mem_cons, List.mem_append, List.mem_map, List.mem_flatMap, List.not_mem_nil, or_false] at ha
  rcases ha with rfl | ⟨x, -, rfl⟩ | ⟨x, -, rfl | rfl⟩ <;> rfl

/-! ### The run on values -/

theorem hears_exec {p : Prog α} {kcs : Pair2 P} {t0 t1 : Server P} {sent : List (Req × Req)} {got : List (Resp × Resp)}
    {a : α} (h : Spec.Hears c0 c1 p (.running kcs.1) (.running kcs.2) sent got a t0 t1) :
    ∃ k : Pair2 P, p.exec c0 c1 kcs = .ok (a, k) := by
  induction p generalizing kcs sent got with
  | ret b => cases h; exact ⟨kcs, rfl⟩
  | panic p => cases h
  | ask r0 r1 k ih =>
    cases h with
    | ask _ _ _ _ _ u0 u1 _ _ a0 a1 sent got _ h0 h1 h =>
      obtain ⟨p0, k0, rfl, e0⟩ := talk_step_ok h0
      obtain ⟨p1, k1, rfl, e1⟩ := talk_step_ok h1
      obtain ⟨k', hk⟩ := ih a0 a1 (kcs := (k0, k1)) h
      refine ⟨k', ?_⟩
      rw [Prog.exec, p0, e0, p1, e1]
      exact hk

end Mastic
