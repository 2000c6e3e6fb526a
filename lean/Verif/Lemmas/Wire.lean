import Verif.Spec.Wire
import Verif.Lemmas.LibLemmas
import Verif.Lemmas.Interleave
import Verif.Lemmas.Shift
import Verif.Lemmas.Flp
import Verif.Lemmas.Batch
import Mathlib.Tactic.Ring

/-!
# Reading back what was written
-/

namespace Mastic

open Codec

/-- Reading from the front of a byte string returns what was written, and the rest. -/
def Codec.Lawful {α : Type} (c : Codec α) (ok : α → Prop) : Prop :=
  ∀ a, ok a → ∀ rest, c.dec (c.enc a ++ rest) = some (a, rest)

namespace Codec

variable {α β : Type}

theorem takeBytes_append (a rest : List Byte) : takeBytes a.length (a ++ rest) = some (a, rest) := by
  simp [takeBytes]

theorem readLE_natLE {n x : Nat} (h : x < 256 ^ n) (rest : List Byte) : readLE n (natLE n x ++ rest) = some (x, rest) := by
  have := takeBytes_append (natLE n x) rest
  rw [natLE_length] at this
  rw [readLE, this, Option.map_some, leNat_natLE, Nat.mod_eq_of_lt h]

theorem varint_lawful : varint.Lawful (· < 2 ^ 64) := by
  intro n hn rest
  by_cases h1 : n < 251
  · have he : varint.enc n = [BitVec.ofNat 8 n] := if_pos h1
    have : (BitVec.ofNat 8 n).toNat = n := by rw [BitVec.toNat_ofNat]; omega
    rw [he]
    simp only [varint, List.cons_append, List.nil_append, this, h1, if_true]
  by_cases h2 : n < 2 ^ 16
  · have he : varint.enc n = 251#8 :: natLE 2 n := by simp only [varint, h1, h2, if_false, if_true]
    rw [he]
    exact readLE_natLE (n := 2) (by norm_num; omega) rest
  by_cases h3 : n < 2 ^ 32
  · have he : varint.enc n = 252#8 :: natLE 4 n := by simp only [varint, h1, h2, h3, if_false, if_true]
    rw [he]
    exact readLE_natLE (n := 4) (by norm_num; omega) rest
  · have he : varint.enc n = 253#8 :: natLE 8 n := by simp only [varint, h1, h2, h3, if_false]
    rw [he]
    exact readLE_natLE (n := 8) (by norm_num; omega) rest

theorem u64_lawful (e : IntEnc) : (u64 e).Lawful (· < 2 ^ 64) := by
  cases e
  · intro n hn rest; exact readLE_natLE (n := 8) (by norm_num; omega) rest
  · exact varint_lawful

theorem tag_lawful (e : IntEnc) : (tag e).Lawful (· < 2 ^ 32) := by
  cases e
  · intro n hn rest; exact readLE_natLE (n := 4) (by norm_num; omega) rest
  · intro n hn rest; exact varint_lawful n (lt_trans hn (by norm_num)) rest

theorem byte_lawful : byte.Lawful fun _ => True := fun _ _ _ => rfl

theorem bool_lawful : bool.Lawful fun _ => True := by intro b _ rest; cases b <;> rfl

theorem array_lawful (n : Nat) : (array n).Lawful fun _ => True := by
  intro v _ rest
  have hl : v.toList.length = n := by simp
  simp only [array]
  rw [dif_pos (by simp)]
  congr 2
  · apply Vector.toList_inj.1
    simp [Vector.toList]
  · rw [List.drop_left' hl]

theorem pair_lawful {c : Codec α} {d : Codec β} {p : α → Prop} {q : β → Prop} (hc : c.Lawful p) (hd : d.Lawful q) :
    (pair c d).Lawful fun x => p x.1 ∧ q x.2 := by
  intro x hx rest
  simp only [pair, List.append_assoc]
  rw [hc _ hx.1, Option.bind_some, hd _ hx.2, Option.map_some]

theorem via_lawful {c : Codec α} {p : α → Prop} (hc : c.Lawful p) {f : β → α} {g : α → β} (h : ∀ b, g (f b) = b) :
    (via c f g).Lawful fun b => p (f b) := by
  intro b hb rest
  simp only [via]
  rw [hc _ hb, Option.map_some, h]

theorem decN_lawful {c : Codec α} {p : α → Prop} (hc : c.Lawful p) (v : List α) (hv : ∀ a ∈ v, p a) (rest : List Byte) :
    decN c v.length ((v.map c.enc).flatten ++ rest) = some (v, rest) := by
  induction v with
  | nil => rfl
  | cons a v ih =>
    simp only [List.length_cons, decN, List.map_cons, List.flatten_cons, List.append_assoc]
    rw [hc a (hv a (by simp)), Option.bind_some, ih (fun x hx => hv x (by simp [hx])), Option.map_some]

theorem vec_lawful (e : IntEnc) {c : Codec α} {p : α → Prop} (hc : c.Lawful p) :
    (vec e c).Lawful fun v => v.length < 2 ^ 64 ∧ ∀ a ∈ v, p a := by
  intro v hv rest
  simp only [vec, List.append_assoc]
  rw [u64_lawful e _ hv.1, Option.bind_some]
  exact decN_lawful hc v hv.2 rest

theorem field_lawful (e : IntEnc) : (field e).Lawful fun _ => True := by
  intro x _ rest
  have hl : (encodeField x).length = 16 := natLE_length 16 x.val
  have hx : leNat (encodeField x) = x.val := by
    rw [encodeField, leNat_natLE, Nat.mod_eq_of_lt (lt_trans (ZMod.val_lt x) (by decide))]
  have ht := takeBytes_append (encodeField x) rest
  rw [hl] at ht
  simp only [field, List.append_assoc]
  rw [u64_lawful e 16 (by norm_num), Option.bind_some, ht, Option.bind_some]
  simp only
  rw [List.take_of_length_le (le_of_eq hl), hx, if_pos ⟨le_refl _, ZMod.val_lt x⟩]
  simp

theorem bytes16_lawful (e : IntEnc) : (bytes16 e).Lawful fun _ => True := by
  intro v _ rest
  simp only [bytes16, List.append_assoc]
  rw [u64_lawful e 16 (by norm_num), Option.bind_some, if_pos rfl]
  exact array_lawful 16 v trivial rest

open Spec

theorem word_lt {n : Nat} (h : word n = true) : n < 2 ^ 64 := of_decide_eq_true h

theorem corWord_lawful (e : IntEnc) : (corWord e).Lawful fun w => w.word.length < 2 ^ 64 := by
  intro w hw rest
  exact via_lawful (pair_lawful (array_lawful 16) (pair_lawful (pair_lawful bool_lawful bool_lawful)
    (vec_lawful e (field_lawful e)))) (fun _ => rfl) w ⟨trivial, ⟨trivial, trivial⟩, hw, fun _ _ => trivial⟩ rest

/-- The lengths in a key. -/
def KeyFits (k : VidpfKey) : Prop :=
  k.corWords.length < 2 ^ 64 ∧ (∀ w ∈ k.corWords, w.word.length < 2 ^ 64) ∧ k.cs.length < 2 ^ 64

theorem vidpfKey_lawful (e : IntEnc) : (vidpfKey e).Lawful KeyFits := by
  intro k hk rest
  exact via_lawful (pair_lawful bool_lawful (pair_lawful (array_lawful 16) (pair_lawful (vec_lawful e (corWord_lawful e))
    (vec_lawful e (array_lawful 16))))) (fun _ => rfl) k
    ⟨trivial, trivial, ⟨hk.1, hk.2.1⟩, hk.2.2, fun _ _ => trivial⟩ rest

theorem reportShare_lawful (e : IntEnc) : (reportShare e).Lawful fun r => shareFits r = true := by
  intro r hr rest
  cases r with
  | mastic n k p j =>
    simp only [shareFits, Bool.and_eq_true, List.all_eq_true] at hr
    obtain ⟨⟨⟨h1, h2⟩, h3⟩, h4⟩ := hr
    have := pair_lawful (array_lawful 16) (pair_lawful (vidpfKey_lawful e) (pair_lawful (vec_lawful e (field_lawful e))
      (pair_lawful (array_lawful 16) (array_lawful 16)))) (n, k, p, j)
      ⟨trivial, ⟨word_lt h1, fun w hw => word_lt (h3 w hw), word_lt h2⟩, ⟨word_lt h4, fun _ _ => trivial⟩, trivial,
        trivial⟩ rest
    simp only [reportShare, List.append_assoc]
    rw [tag_lawful e 0 (by norm_num), Option.bind_some]
    exact congrArg (Option.map _) this
  | prio3 n pub inp =>
    simp only [shareFits, Bool.and_eq_true] at hr
    have := pair_lawful (array_lawful 16) (pair_lawful (vec_lawful e byte_lawful) (vec_lawful e byte_lawful)) (n, pub, inp)
      ⟨trivial, ⟨word_lt hr.1, fun _ _ => trivial⟩, ⟨word_lt hr.2, fun _ _ => trivial⟩⟩ rest
    simp only [reportShare, List.append_assoc]
    rw [tag_lawful e 1 (by norm_num), Option.bind_some]
    exact congrArg (Option.map _) this

theorem all_word {l : List Nat} (h : l.all word = true) : ∀ x ∈ l, x < 2 ^ 64 := fun x hx =>
  word_lt (List.all_eq_true.1 h x hx)

theorem range_lawful (e : IntEnc) : (rangeCodec e).Lawful fun p => p.1 < 2 ^ 64 ∧ p.2 < 2 ^ 64 :=
  pair_lawful (u64_lawful e) (u64_lawful e)

theorem tag_small (r : Req) : r.tag < 2 ^ 32 := by cases r <;> simp [Req.tag]

theorem req_lawful (e : IntEnc) : (reqCodec e).Lawful fun r => reqFits r = true := by
  intro r hr rest
  simp only [reqCodec, List.append_assoc]
  rw [tag_lawful e r.tag (tag_small r), Option.bind_some]
  cases r <;> simp only [reqFits, Bool.and_eq_true, List.all_eq_true] at hr
  case treeInit => rfl
  case treeCrawlLast => rfl
  case finalShares => rfl
  case reset vk b =>
    exact congrArg (Option.map _) (pair_lawful (array_lawful 16) (u64_lawful e) (vk, b) ⟨trivial, word_lt hr⟩ rest)
  case addReportShares rs =>
    exact congrArg (Option.map _) (vec_lawful e (reportShare_lawful e) rs ⟨word_lt hr.1, hr.2⟩ rest)
  case runFlpQueries s t =>
    exact congrArg (Option.map _) (range_lawful e (s, t) ⟨word_lt hr.1, word_lt hr.2⟩ rest)
  case getProofs s t =>
    exact congrArg (Option.map _) (range_lawful e (s, t) ⟨word_lt hr.1, word_lt hr.2⟩ rest)
  case pmValidate s t =>
    exact congrArg (Option.map _) (range_lawful e (s, t) ⟨word_lt hr.1, word_lt hr.2⟩ rest)
  case applyFlpResults keep =>
    exact congrArg (Option.map _) (vec_lawful e bool_lawful keep ⟨word_lt hr, fun _ _ => trivial⟩ rest)
  case treePrune keep =>
    exact congrArg (Option.map _) (vec_lawful e bool_lawful keep ⟨word_lt hr, fun _ _ => trivial⟩ rest)
  case treeCrawl s m l =>
    exact congrArg (Option.map _) (pair_lawful (u64_lawful e) (pair_lawful (vec_lawful e (u64_lawful e)) bool_lawful)
      (s, m, l) ⟨word_lt hr.1.1, ⟨word_lt hr.1.2, fun x hx => word_lt (hr.2 x hx)⟩, trivial⟩ rest)
  case abmValidate a s t =>
    exact congrArg (Option.map _) (pair_lawful (vec_lawful e (vec_lawful e bool_lawful)) (range_lawful e) (a, s, t)
      ⟨⟨word_lt hr.1.1.1, fun x hx => ⟨word_lt (hr.1.1.2 x hx), fun _ _ => trivial⟩⟩, word_lt hr.1.2, word_lt hr.2⟩ rest)
  case abmResult rej n s t =>
    exact congrArg (Option.map _) (pair_lawful (vec_lawful e (u64_lawful e)) (pair_lawful (u64_lawful e) (range_lawful e))
      (rej, n, s, t) ⟨⟨word_lt hr.1.1.1.1, fun x hx => word_lt (hr.1.1.1.2 x hx)⟩, word_lt hr.1.1.2, word_lt hr.1.2,
        word_lt hr.2⟩ rest)
  case pmResult peers s t =>
    exact congrArg (Option.map _) (pair_lawful (vec_lawful e (vec_lawful e byte_lawful)) (range_lawful e) (peers, s, t)
      ⟨⟨word_lt hr.1.1.1, fun x hx => ⟨word_lt (hr.1.1.2 x hx), fun _ _ => trivial⟩⟩, word_lt hr.1.2, word_lt hr.2⟩ rest)

theorem resp_lawful (e : IntEnc) (r : Req) (a : Resp) (h : answers r a = true) (ha : respFits a = true) (rest : List Byte) :
    decResp e (encResp e r.tag a ++ rest) = some (a, rest) := by
  simp only [decResp, encResp, List.append_assoc]
  rw [tag_lawful e r.tag (tag_small r), Option.bind_some]
  have hvecs : ∀ v, respFits (.fieldVecs v) = true →
      (vec e (vec e (field e))).dec ((vec e (vec e (field e))).enc v ++ rest) = some (v, rest) := by
    intro v hv
    simp only [respFits, Bool.and_eq_true, List.all_eq_true] at hv
    exact vec_lawful e (vec_lawful e (field_lawful e)) v
      ⟨word_lt hv.1, fun x hx => ⟨word_lt (hv.2 x hx), fun _ _ => trivial⟩⟩ rest
  have hdone : (vec e byte).dec ((vec e byte).enc doneText ++ rest) = some (doneText, rest) :=
    vec_lawful e byte_lawful doneText ⟨by simp [doneText], fun _ _ => trivial⟩ rest
  cases r <;> cases a <;> simp only [answers, Bool.false_eq_true] at h
  case reset.done => exact congrArg (Option.map _) hdone
  case addReportShares.done => exact congrArg (Option.map _) hdone
  case treeInit.done => exact congrArg (Option.map _) hdone
  case applyFlpResults.done => exact congrArg (Option.map _) hdone
  case treePrune.done => exact congrArg (Option.map _) hdone
  case runFlpQueries.fieldVecs v => exact congrArg (Option.map _) (hvecs v ha)
  case treeCrawlLast.fieldVecs v => exact congrArg (Option.map _) (hvecs v ha)
  case abmResult.fieldVecs v => exact congrArg (Option.map _) (hvecs v ha)
  all_goals simp only [respFits, Bool.and_eq_true, List.all_eq_true] at ha
  case treeCrawl.crawl r =>
    exact congrArg (Option.map _) (via_lawful (pair_lawful (vec_lawful e (vec_lawful e (field_lawful e)))
      (pair_lawful (vec_lawful e (bytes16_lawful e)) (vec_lawful e (u64_lawful e)))) (fun _ => rfl) r
      ⟨⟨word_lt ha.1.1.1.1, fun x hx => ⟨word_lt (ha.1.1.1.2 x hx), fun _ _ => trivial⟩⟩,
        ⟨word_lt ha.1.1.2, fun _ _ => trivial⟩, word_lt ha.1.2, fun x hx => word_lt (ha.2 x hx)⟩ rest)
  case getProofs.proofs v =>
    exact congrArg (Option.map _) (vec_lawful e (array_lawful 16) v ⟨word_lt ha, fun _ _ => trivial⟩ rest)
  case finalShares.shares v =>
    exact congrArg (Option.map _) (vec_lawful e (via_lawful (pair_lawful (vec_lawful e bool_lawful)
      (vec_lawful e (field_lawful e))) (f := fun r : HHResult => (r.path, r.value)) (g := fun t => ⟨t.1, t.2⟩)
      (fun _ => rfl)) v ⟨word_lt ha.1, fun x hx => ⟨⟨word_lt (ha.2 x hx).1, fun _ _ => trivial⟩,
        word_lt (ha.2 x hx).2, fun _ _ => trivial⟩⟩ rest)
  case abmValidate.validated v =>
    exact congrArg (Option.map _) (vec_lawful e (pair_lawful (vec_lawful e (field_lawful e)) (array_lawful 32)) v
      ⟨word_lt ha.1, fun x hx => ⟨⟨word_lt (ha.2 x hx), fun _ _ => trivial⟩, trivial⟩⟩ rest)
  case pmValidate.bytes v =>
    exact congrArg (Option.map _) (vec_lawful e (vec_lawful e byte_lawful) v
      ⟨word_lt ha.1, fun x hx => ⟨word_lt (ha.2 x hx), fun _ _ => trivial⟩⟩ rest)
  case pmResult.aggregate v n =>
    exact congrArg (Option.map _) (pair_lawful (vec_lawful e (field_lawful e)) (u64_lawful e) (v, n)
      ⟨⟨word_lt ha.1, fun _ _ => trivial⟩, word_lt ha.2⟩ rest)

end Codec

open Spec

variable {P : Prims}

theorem locked_answers {cfg : ServerCfg} {kc kc' : KeyCollection P} {r : Req} {a : Resp}
    (h : locked cfg kc r = .ok (kc', a)) : answers r a = true := by
  cases r <;> simp only [locked] at h
  case addReportShares => cases h; rfl
  case finalShares => cases h; rfl
  all_goals
    obtain ⟨x, -, h⟩ := bind_eq_ok.1 h
    first
    | cases h; rfl
    | obtain ⟨y, -, h⟩ := bind_eq_ok.1 h
      cases h; rfl

theorem handle_answers {cfg : ServerCfg} {s : Server P} {r : Req} {a : Resp}
    (h : (s.handle cfg r).2 = .ok a) : answers r a = true := by
  cases s with
  | poisoned =>
    simp only [Server.handle] at h
    split at h <;> cases h
  | running kc =>
    obtain ⟨kc', -, hl, -⟩ := handle_running_ok h
    exact locked_answers hl

theorem netCall_eq {net : Net} {cfg : ServerCfg} {s : Server P} {r : Req} (h : callFits net cfg s r = true) :
    netCall net cfg s r = s.handle cfg r := by
  simp only [callFits, Bool.and_eq_true, decide_eq_true_eq] at h
  obtain ⟨⟨h1, h2⟩, h3⟩ := h
  have hd := Codec.req_lawful .varint r h1 []
  rw [List.append_nil] at hd
  rw [netCall, if_neg (not_lt.2 h2), hd]
  simp only
  cases ha : (s.handle cfg r).2 with
  | error p => exact Prod.ext rfl ha.symm
  | ok a =>
    rw [ha] at h3
    simp only [Bool.and_eq_true, decide_eq_true_eq] at h3
    have hr := Codec.resp_lawful .varint r a (handle_answers ha) h3.1 []
    rw [List.append_nil] at hr
    simp only
    rw [if_neg (not_lt.2 h3.2), hr]
    exact Prod.ext rfl ha.symm

variable {α : Type} {n0 n1 : Net} {c0 c1 : ServerCfg}

theorem netRun_eq {p : Prog α} : ∀ {kcs : Pair2 P} {a : α} {s' : Server P × Server P},
    runFits n0 n1 c0 c1 p (.running kcs.1, .running kcs.2) = true →
    (p.netRun n0 n1 c0 c1 (.running kcs.1, .running kcs.2) = .ok (a, s') ↔
      ∃ kcs' : Pair2 P, s' = (.running kcs'.1, .running kcs'.2) ∧ p.exec c0 c1 kcs = .ok (a, kcs')) := by
  induction p with
  | ret x =>
    intro kcs a s' _
    simp only [Prog.netRun, exec_ret]
    constructor
    · intro h; cases h; exact ⟨kcs, rfl, rfl⟩
    · rintro ⟨kcs', rfl, h⟩; cases h; rfl
  | panic e =>
    intro kcs a s' _
    simp only [Prog.netRun, exec_panic]
    constructor
    · intro h; cases h
    · rintro ⟨_, -, h⟩; cases h
  | ask r0 r1 k ih =>
    intro kcs a s' hf
    simp only [runFits, Bool.and_eq_true] at hf
    obtain ⟨⟨h0, h1⟩, hk⟩ := hf
    have e0 := netCall_eq h0
    have e1 := netCall_eq h1
    rw [Prog.netRun, e0, e1]
    simp only [Prog.exec]
    cases g0 : ((Server.running kcs.1).handle c0 r0).2 with
    | error p =>
      simp only
      constructor
      · intro h; cases h
      · rintro ⟨_, -, h⟩
        obtain ⟨_, hp, h⟩ := bind_eq_ok.1 h
        obtain ⟨x, hl, -⟩ := bind_eq_ok.1 h
        rcases handle_running_error g0 with hh | ⟨-, hh, -⟩
        · rw [hh] at hp; cases hp
        · rw [hh] at hl; cases hl
    | ok a0 =>
      obtain ⟨k0, p0, l0, s0⟩ := handle_running_ok g0
      cases g1 : ((Server.running kcs.2).handle c1 r1).2 with
      | error p =>
        simp only
        constructor
        · intro h; cases h
        · rintro ⟨_, -, h⟩
          obtain ⟨_, -, h⟩ := bind_eq_ok.1 h
          obtain ⟨x, -, h⟩ := bind_eq_ok.1 h
          obtain ⟨_, hp, h⟩ := bind_eq_ok.1 h
          obtain ⟨x, hl, -⟩ := bind_eq_ok.1 h
          rcases handle_running_error g1 with hh | ⟨-, hh, -⟩
          · rw [hh] at hp; cases hp
          · rw [hh] at hl; cases hl
      | ok a1 =>
        obtain ⟨k1, p1, l1, s1⟩ := handle_running_ok g1
        rw [g0, g1] at hk
        simp only at hk ⊢
        rw [s0, s1] at hk ⊢
        rw [p0, l0, p1, l1]
        simp only [ok_bind]
        exact ih a0 a1 (kcs := (k0, k1)) hk

/-- The same extra bytes and a limit at least as large. -/
def Net.Le (n m : Net) : Prop := n.reqExtra = m.reqExtra ∧ n.respExtra = m.respExtra ∧ n.limit ≤ m.limit

theorem netCall_mono {n m : Net} (h : n.Le m) {cfg : ServerCfg} {s : Server P} {r : Req} {a : Resp}
    (hc : (netCall n cfg s r).2 = .ok a) : netCall m cfg s r = netCall n cfg s r := by
  obtain ⟨q, p, l⟩ := h
  by_cases h1 : n.limit < n.reqExtra + ((reqCodec .varint).enc r).length
  · rw [netCall, if_pos h1] at hc; cases hc
  rw [netCall, if_neg h1] at hc
  rw [netCall, netCall, if_neg h1, if_neg (by omega)]
  rcases hd : (reqCodec .varint).dec ((reqCodec .varint).enc r) with - | ⟨r', - | ⟨b, bs⟩⟩
  · rfl
  · rw [hd] at hc
    simp only at hc ⊢
    cases ha : (s.handle cfg r').2 with
    | error e => rfl
    | ok x =>
      rw [ha] at hc
      simp only at hc ⊢
      by_cases h2 : n.limit < n.respExtra + (encResp .varint r'.tag x).length
      · rw [if_pos h2] at hc; cases hc
      · rw [if_neg h2, if_neg (by omega)]
  · rfl

theorem netRun_mono {m0 m1 : Net} (h0 : n0.Le m0) (h1 : n1.Le m1) {p : Prog α} :
    ∀ {s : Server P × Server P} {x : α × Server P × Server P},
    p.netRun n0 n1 c0 c1 s = .ok x → p.netRun m0 m1 c0 c1 s = .ok x := by
  induction p with
  | ret a => intro s x h; exact h
  | panic e => intro s x h; exact h
  | ask r0 r1 k ih =>
    intro s x h
    rw [Prog.netRun] at h ⊢
    cases g0 : (netCall n0 c0 s.1 r0).2 with
    | error p => rw [g0] at h; cases h
    | ok a =>
      cases g1 : (netCall n1 c1 s.2 r1).2 with
      | error p => rw [g0, g1] at h; cases h
      | ok b =>
        rw [netCall_mono h0 g0, netCall_mono h1 g1, g0, g1]
        rw [g0, g1] at h
        exact ih a b h

theorem netRun_bind {β : Type} (p : Prog α) (f : α → Prog β) (s : Server P × Server P) :
    (p >>= f).netRun n0 n1 c0 c1 s = p.netRun n0 n1 c0 c1 s >>= fun x => (f x.1).netRun n0 n1 c0 c1 x.2 := by
  induction p generalizing s with
  | ret a => rfl
  | panic p => rfl
  | ask r0 r1 k ih =>
    show (Prog.ask r0 r1 fun a b => (k a b).bind f).netRun n0 n1 c0 c1 s = _
    simp only [Prog.netRun]
    split
    · next a b h0 h1 => exact ih a b _
    · next h0 => rfl
    · next h0 h1 => rfl

theorem netRun_lift (e : Exec α) (s : Server P × Server P) :
    (Prog.lift e).netRun n0 n1 c0 c1 s = e >>= fun a => .ok (a, s) := by
  cases e <;> rfl

/-! ## Sizes -/

namespace Codec

theorem u64_len (e : IntEnc) (n : Nat) : ((u64 e).enc n).length = intLen e n := by
  cases e
  · exact natLE_length 8 n
  · simp only [u64, varint, intLen]
    norm_num
    split_ifs <;> simp

theorem tag_len (e : IntEnc) (n : Nat) (h : n < 251) :
    ((tag e).enc n).length = tagLen e := by
  cases e
  · exact natLE_length 4 n
  · simp [tag, varint, h, tagLen]

theorem field_len (e : IntEnc) (x : Field128) : ((field e).enc x).length = fieldLen e := by
  simp only [field, List.length_append, u64_len, fieldLen]
  exact congrArg _ (natLE_length 16 x.val)

theorem flatten_len {α : Type} (c : Codec α) (k : Nat) (v : List α) (h : ∀ a ∈ v, (c.enc a).length = k) :
    (v.map c.enc).flatten.length = v.length * k := by
  induction v with
  | nil => simp
  | cons a v ih =>
    rw [List.map_cons, List.flatten_cons, List.length_append, ih fun x hx => h x (by simp [hx]), h a (by simp),
      List.length_cons]
    ring

theorem vec_len {α : Type} (e : IntEnc) (c : Codec α) (k : Nat) (v : List α) (h : ∀ a ∈ v, (c.enc a).length = k) :
    ((vec e c).enc v).length = intLen e v.length + v.length * k := by
  simp only [vec, List.length_append, u64_len, flatten_len c k v h]

theorem array_len {n : Nat} (v : Vector Byte n) : ((array n).enc v).length = n := by simp [array]

theorem corWord_len (e : IntEnc) (w : CorWord) {b : Nat} (h : w.word.length = b + 1) :
    ((corWord e).enc w).length = 18 + intLen e (b + 1) + (b + 1) * fieldLen e := by
  simp only [corWord, via, pair, bool, List.length_append, array_len, List.length_cons, List.length_nil]
  rw [vec_len e (field e) (fieldLen e) w.word fun x _ => field_len e x, h]
  omega

end Codec

/-- The shape of a key for strings of `d` bits and `b` buckets. -/
def KeyShape (d b : Nat) (k : VidpfKey) : Prop :=
  k.corWords.length = d ∧ k.cs.length = d ∧ ∀ w ∈ k.corWords, w.word.length = b + 1

theorem key_len (e : IntEnc) {k : VidpfKey} {d b : Nat} (h : KeyShape d b k) :
    ((vidpfKey e).enc k).length = keyLen e d b := by
  obtain ⟨h1, h2, h3⟩ := h
  simp only [vidpfKey, via, pair, Codec.bool, List.length_append, Codec.array_len, List.length_cons, List.length_nil]
  rw [Codec.vec_len e (corWord e) _ k.corWords fun w hw => Codec.corWord_len e w (h3 w hw),
    Codec.vec_len e (array 16) 16 k.cs fun x _ => Codec.array_len x, h1, h2, keyLen]
  ring

/-- The shape of a report share. -/
def MasticShape (d b l : Nat) : ReportShare → Prop
  | .mastic _ k p _ => KeyShape d b k ∧ p.length = l
  | .prio3 .. => False

theorem share_len (e : IntEnc) {r : ReportShare} {d b l : Nat} (h : MasticShape d b l r) :
    ((reportShare e).enc r).length = masticLen e d b l := by
  cases r with
  | prio3 => exact h.elim
  | mastic n k p j =>
    simp only [reportShare, masticShare, pair, List.length_append, Codec.array_len, key_len e h.1]
    rw [Codec.vec_len e (field e) (fieldLen e) p fun x _ => Codec.field_len e x, h.2,
      Codec.tag_len e 0 (by norm_num), masticLen]
    omega

theorem gen_shape {b bucket : Nat} {alpha : List Bool} {r : ClientRand} {rep : PlaintextReport}
    {l : Nat} (hl : ProofLen P b l) (h : genMasticReport P b alpha bucket r = .ok rep) :
    ∃ n k0 k1 p0 p1 jr, rep = .mastic n (k0, k1) (p0, p1) jr alpha ∧ KeyShape alpha.length b k0 ∧
      KeyShape alpha.length b k1 ∧ p0.length = l ∧ p1.length = l := by
  obtain ⟨beta, hb, h⟩ := bind_eq_ok.1 h
  obtain ⟨proof, hp, h⟩ := bind_eq_ok.1 h
  cases h
  have hb' : encodeMeasurement b bucket = some beta := by
    cases hx : encodeMeasurement b bucket with
    | none => rw [hx] at hb; cases hb
    | some x => rw [hx] at hb; cases hb; rfl
  have hp' : proof.length = l := by
    cases hx : P.flpProve b beta r.proveRand _ with
    | none => rw [hx] at hp; cases hp
    | some x => rw [hx] at hp; cases hp; exact hl _ _ _ _ hx
  have hbl := (encodeMeasurement_length hb').1
  refine ⟨_, _, _, _, _, _, rfl, ?_, ?_, ?_, ?_⟩
  · exact ⟨(gen_lengths P r.rootSeeds alpha beta false).1, (gen_lengths P r.rootSeeds alpha beta false).2, fun w hw => by
      rw [genLoop_word_length P beta alpha _ _ _ w hw, hbl]⟩
  · exact ⟨(gen_lengths P r.rootSeeds alpha beta true).1, (gen_lengths P r.rootSeeds alpha beta true).2, fun w hw => by
      rw [genLoop_word_length P beta alpha _ _ _ w hw, hbl]⟩
  · simp [hp']
  · simp [hp']

/-- Both shares of a report have the same shape. -/
def ReportShape (d b l : Nat) (rep : PlaintextReport) : Prop :=
  MasticShape d b l rep.toShares.1 ∧ MasticShape d b l rep.toShares.2

theorem gen_reportShape {b bucket : Nat} {alpha : List Bool} {r : ClientRand} {rep : PlaintextReport}
    {l : Nat} (hl : ProofLen P b l) (h : genMasticReport P b alpha bucket r = .ok rep) :
    ReportShape alpha.length b l rep := by
  obtain ⟨n, k0, k1, p0, p1, jr, rfl, h0, h1, q0, q1⟩ := gen_shape hl h
  exact ⟨⟨h0, q0⟩, h1, q1⟩

theorem tamper_shape {d b l : Nat} {t : Tamper} {r r' : ReportShare} (h : MasticShape d b l r)
    (ht : tamperShare t r = .ok r') : MasticShape d b l r' := by
  cases r with
  | prio3 => exact h.elim
  | mastic n k p j =>
    cases t with
    | key => cases ht; exact h
    | flp =>
      cases p with
      | nil => cases ht
      | cons x xs => cases ht; exact ⟨h.1, by simpa using h.2⟩

theorem pick_shape {d b l : Nat} {reports : List PlaintextReport} (hr : ∀ r ∈ reports, ReportShape d b l r)
    {pick : Nat × Option Tamper} {sh : ReportShare × ReportShare} (h : pickShares reports pick = .ok sh) :
    MasticShape d b l sh.1 ∧ MasticShape d b l sh.2 := by
  unfold pickShares at h
  split at h
  · cases h
  · obtain ⟨r, hi, h⟩ := bind_eq_ok.1 h
    have hm : r ∈ reports := by
      unfold idx at hi
      split at hi
      · next x hx => cases hi; exact List.mem_of_getElem? hx
      · cases hi
    obtain ⟨s0, s1⟩ := hr r hm
    split at h
    · cases h; exact ⟨s0, s1⟩
    · obtain ⟨x, hx, h⟩ := bind_eq_ok.1 h
      cases h
      exact ⟨s0, tamper_shape s1 hx⟩

theorem add_len {d b l : Nat} {rs : List ReportShare} (h : ∀ r ∈ rs, MasticShape d b l r) :
    ((reqCodec .varint).enc (.addReportShares rs)).length
      = 1 + intLen .varint rs.length + rs.length * masticLen .varint d b l := by
  simp only [reqCodec, List.length_append, Req.encBody]
  rw [Codec.vec_len .varint (reportShare .varint) _ rs fun r hr => share_len .varint (h r hr),
    Codec.tag_len .varint _ (by simp [Req.tag]), tagLen]
  omega

/-! ## Messages above the frame limit -/

theorem netCall_big {net : Net} {cfg : ServerCfg} {s : Server P} {r : Req}
    (h : net.limit < net.reqExtra + ((reqCodec .varint).enc r).length) : netCall net cfg s r = (s, .error .unwrap) := by
  rw [netCall, if_pos h]

theorem uploadBatches_first {batch left fuel : Nat} {sizes : List Nat} (hl : 0 < left)
    (h : uploadBatches batch fuel left = .ok sizes) : ∃ rest, sizes = min left batch :: rest := by
  obtain ⟨left, rfl⟩ := Nat.exists_eq_succ_of_ne_zero hl.ne'
  cases batch with
  | zero => rw [uploadBatches_zero] at h; cases h
  | succ b =>
    cases fuel with
    | zero => cases h
    | succ fuel =>
      rw [uploadBatches] at h
      obtain ⟨rest, -, h⟩ := bind_eq_ok.1 h
      cases h
      rw [show (1000 : Nat) = 999 + 1 from rfl, batchRound]
      rw [if_pos (by omega)]
      exact ⟨_, rfl⟩

theorem netRun_error_bind {β : Type} {p : Prog α} {f : α → Prog β} {s : Server P × Server P}
    (h : ∀ x, p.netRun n0 n1 c0 c1 s = .ok x → ∃ e, (f x.1).netRun n0 n1 c0 c1 x.2 = .error e) :
    ∃ e, (p >>= f).netRun n0 n1 c0 c1 s = .error e := by
  rw [netRun_bind]
  cases hp : p.netRun n0 n1 c0 c1 s with
  | error e => exact ⟨e, rfl⟩
  | ok x => exact h x hp

theorem upload_too_big {d b l : Nat} {cfg : Config} {reports : List PlaintextReport}
    (hr : ∀ r ∈ reports, ReportShape d b l r) {picks : List (Nat × Option Tamper)} (hp : 0 < picks.length)
    (hbig : n0.limit < n0.reqExtra + (1 + intLen .varint (min picks.length cfg.addBatch) +
      min picks.length cfg.addBatch * masticLen .varint d b l))
    (s : Server P × Server P) : ∃ e, (uploadP cfg reports picks).netRun n0 n1 c0 c1 s = .error e := by
  refine netRun_error_bind fun x hx => ?_
  rw [liftM_prog, netRun_lift] at hx
  obtain ⟨sizes, hs, hx⟩ := bind_eq_ok.1 hx
  cases hx
  obtain ⟨rest, rfl⟩ := uploadBatches_first hp hs
  simp only [splitBatches, awaitAllP]
  refine netRun_error_bind fun x hx => ?_
  exfalso
  rw [addReportsP, netRun_bind, liftM_prog, netRun_lift] at hx
  obtain ⟨⟨sh, s'⟩, hsh, hx⟩ := bind_eq_ok.1 hx
  obtain ⟨sh', hm, hsh⟩ := bind_eq_ok.1 hsh
  cases hsh
  have hlen : sh.length = min picks.length cfg.addBatch := by
    rw [mapE_length hm, List.length_take, min_comm, ← min_assoc, min_self]
  have hshape : ∀ r ∈ sh.map Prod.fst, MasticShape d b l r := by
    intro r hrm
    obtain ⟨q, hq, rfl⟩ := List.mem_map.1 hrm
    obtain ⟨i, hi, rfl⟩ := List.getElem_of_mem hq
    exact (pick_shape hr (mapE_getElem hm i (by rw [← mapE_length hm]; exact hi) hi)).1
  have := netCall_big (net := n0) (cfg := c0) (s := s.1) (r := .addReportShares (sh.map Prod.fst)) (by
    rw [add_len hshape, List.length_map, hlen]; exact hbig)
  simp only [callDone, Prog.netRun, this] at hx
  cases hx

end Mastic
