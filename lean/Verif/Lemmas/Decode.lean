import Verif.Model.Frame
import Verif.Spec.Decode
import Verif.Lemmas.Wire
import Verif.Lemmas.History

/-!
# Reading arbitrary bytes
-/

namespace Mastic

open Codec

/-- Whatever is read takes at least as many bytes as its own encoding, is this encoding if it takes not more, and is a
value of the Rust type. -/
def Codec.Tight {α : Type} (c : Codec α) (ok : α → Prop) : Prop :=
  ∀ l a rest, c.dec l = some (a, rest) → ok a ∧ ∃ used, l = used ++ rest ∧ (c.enc a).length ≤ used.length ∧
    (used.length = (c.enc a).length → used = c.enc a)

namespace Codec

variable {α β : Type}

theorem Tight.mono {c : Codec α} {p q : α → Prop} (h : c.Tight p) (hpq : ∀ a, p a → q a) : c.Tight q :=
  fun l a rest hd => ⟨hpq a (h l a rest hd).1, (h l a rest hd).2⟩

theorem takeBytes_some {n : Nat} {l a rest : List Byte} (h : takeBytes n l = some (a, rest)) :
    l = a ++ rest ∧ a.length = n := by
  unfold takeBytes at h
  split at h
  · cases h
    exact ⟨(List.take_append_drop _ _).symm, by rw [List.length_take]; omega⟩
  · cases h

theorem readLE_some {n x : Nat} {l rest : List Byte} (h : readLE n l = some (x, rest)) :
    x < 256 ^ n ∧ l = natLE n x ++ rest := by
  unfold readLE at h
  cases ht : takeBytes n l with
  | none => rw [ht] at h; cases h
  | some p =>
    rw [ht] at h
    obtain ⟨a, r⟩ := p
    simp only [Option.map_some, Option.some.injEq, Prod.mk.injEq] at h
    obtain ⟨rfl, rfl⟩ := h
    obtain ⟨e, hl⟩ := takeBytes_some ht
    refine ⟨?_, ?_⟩
    · rw [← hl]; exact leNat_lt a
    · rw [← hl, natLE_leNat]; exact e

/-- The number of bytes of a variable-width number. -/
theorem varint_len (n : Nat) : (varint.enc n).length = if n < 251 then 1 else if n < 2 ^ 16 then 3
    else if n < 2 ^ 32 then 5 else 9 := by
  simp only [varint]
  split_ifs <;> simp

theorem varint_tight : varint.Tight (· < 2 ^ 64) := by
  intro l n rest h
  cases l with
  | nil => cases h
  | cons b l =>
    simp only [varint] at h
    split_ifs at h with h1 h2 h3 h4
    · cases h
      refine ⟨by omega, [b], rfl, ?_, fun _ => ?_⟩
      · rw [varint_len, if_pos h1]; rfl
      · simp only [varint, if_pos h1]
        congr 1
        exact BitVec.eq_of_toNat_eq (by rw [BitVec.toNat_ofNat, Nat.mod_eq_of_lt b.isLt])
    · obtain ⟨hx, hl⟩ := readLE_some h
      refine ⟨by omega, b :: natLE 2 n, by rw [hl]; rfl, ?_, fun he => ?_⟩
      · rw [varint_len]
        split_ifs <;> simp
        all_goals omega
      · rw [varint_len] at he
        simp only [List.length_cons, natLE_length] at he
        split_ifs at he with g1 g2
        · omega
        · simp only [varint, if_neg g1, if_pos g2, h2]
        · omega
        · omega
    · obtain ⟨hx, hl⟩ := readLE_some h
      refine ⟨by omega, b :: natLE 4 n, by rw [hl]; rfl, ?_, fun he => ?_⟩
      · rw [varint_len]
        split_ifs <;> simp
        all_goals omega
      · rw [varint_len] at he
        simp only [List.length_cons, natLE_length] at he
        split_ifs at he with g1 g2 g3
        · omega
        · omega
        · simp only [varint, if_neg g1, if_neg g2, if_pos g3, h3]
        · omega
    · obtain ⟨hx, hl⟩ := readLE_some h
      refine ⟨by omega, b :: natLE 8 n, by rw [hl]; rfl, ?_, fun he => ?_⟩
      · rw [varint_len]
        split_ifs <;> simp
      · rw [varint_len] at he
        simp only [List.length_cons, natLE_length] at he
        split_ifs at he with g1 g2 g3
        · omega
        · omega
        · omega
        · simp only [varint, if_neg g1, if_neg g2, if_neg g3, h4]

theorem natLE_tight (n : Nat) : (Codec.mk (natLE n) (readLE n)).Tight (· < 256 ^ n) := by
  intro l x rest h
  obtain ⟨hx, hl⟩ := readLE_some h
  exact ⟨hx, natLE n x, hl, le_rfl, fun _ => rfl⟩

theorem u64_tight (e : IntEnc) : (u64 e).Tight (· < 2 ^ 64) := by
  cases e
  · exact (natLE_tight 8).mono fun a h => by norm_num at h ⊢; exact h
  · exact varint_tight

theorem tag_tight (e : IntEnc) : (tag e).Tight fun _ => True := by
  cases e
  · exact (natLE_tight 4).mono fun _ _ => trivial
  · exact varint_tight.mono fun _ _ => trivial

theorem byte_tight : byte.Tight fun _ => True := by
  intro l a rest h
  cases l with
  | nil => cases h
  | cons b l => cases h; exact ⟨trivial, [a], rfl, le_rfl, fun _ => rfl⟩

theorem bool_tight : bool.Tight fun _ => True := by
  intro l a rest h
  cases l with
  | nil => cases h
  | cons b l =>
    simp only [bool] at h
    split_ifs at h with h1 h2
    · cases h; exact ⟨trivial, [b], rfl, le_rfl, fun _ => by rw [h1]; rfl⟩
    · cases h; exact ⟨trivial, [b], rfl, le_rfl, fun _ => by rw [h2]; rfl⟩

theorem array_tight (n : Nat) : (array n).Tight fun _ => True := by
  intro l a rest h
  simp only [array] at h
  split at h
  · rename_i hn
    cases h
    refine ⟨trivial, l.take n, (List.take_append_drop _ _).symm, by simp [array], fun _ => by simp [array]⟩
  · cases h

theorem pair_tight {c : Codec α} {d : Codec β} {p : α → Prop} {q : β → Prop} (hc : c.Tight p) (hd : d.Tight q) :
    (pair c d).Tight fun x => p x.1 ∧ q x.2 := by
  intro l x rest h
  simp only [pair, Option.bind_eq_some_iff, Option.map_eq_some_iff] at h
  obtain ⟨⟨a, r1⟩, h1, ⟨b, r2⟩, h2, h3⟩ := h
  cases h3
  obtain ⟨pa, u, rfl, lu, eu⟩ := hc _ _ _ h1
  obtain ⟨qb, v, hv, lv, ev⟩ := hd _ _ _ h2
  dsimp only at hv
  subst hv
  refine ⟨⟨pa, qb⟩, u ++ v, by rw [List.append_assoc], ?_, fun he => ?_⟩
  · simp only [pair, List.length_append]; omega
  · simp only [pair, List.length_append] at he ⊢
    rw [eu (by omega), ev (by omega)]

theorem via_tight {c : Codec α} {p : α → Prop} {q : β → Prop} (hc : c.Tight p) {f : β → α} {g : α → β}
    (hfg : ∀ a, f (g a) = a) (hq : ∀ a, p a → q (g a)) : (via c f g).Tight q := by
  intro l b rest h
  simp only [via, Option.map_eq_some_iff] at h
  obtain ⟨⟨a, r1⟩, h1, h3⟩ := h
  cases h3
  obtain ⟨pa, u, rfl, lu, eu⟩ := hc _ _ _ h1
  refine ⟨hq a pa, u, rfl, ?_, ?_⟩ <;> simp only [via, hfg]
  · exact lu
  · exact eu

theorem decN_tight {c : Codec α} {p : α → Prop} (hc : c.Tight p) :
    ∀ (n : Nat) (l : List Byte) (v : List α) (rest : List Byte), decN c n l = some (v, rest) →
    v.length = n ∧ (∀ a ∈ v, p a) ∧ ∃ used, l = used ++ rest ∧ ((v.map c.enc).flatten).length ≤ used.length ∧
      (used.length = ((v.map c.enc).flatten).length → used = (v.map c.enc).flatten)
  | 0, l, v, rest, h => by
    simp only [decN, Option.some.injEq, Prod.mk.injEq] at h
    obtain ⟨rfl, rfl⟩ := h
    exact ⟨rfl, by simp, [], rfl, le_rfl, fun _ => rfl⟩
  | n + 1, l, v, rest, h => by
    simp only [decN, Option.bind_eq_some_iff, Option.map_eq_some_iff] at h
    obtain ⟨⟨a, r1⟩, h1, ⟨w, r2⟩, h2, h3⟩ := h
    cases h3
    obtain ⟨pa, u, rfl, lu, eu⟩ := hc _ _ _ h1
    obtain ⟨hl, hp, x, hx, lx, ex⟩ := decN_tight hc n _ _ _ h2
    dsimp only at hx
    subst hx
    refine ⟨by simp [hl], ?_, u ++ x, by rw [List.append_assoc], ?_, fun he => ?_⟩
    · intro b hb
      rcases List.mem_cons.1 hb with rfl | hb
      · exact pa
      · exact hp b hb
    · simp only [List.map_cons, List.flatten_cons, List.length_append]; omega
    · simp only [List.map_cons, List.flatten_cons, List.length_append] at he ⊢
      rw [eu (by omega), ex (by omega)]

theorem vec_tight (e : IntEnc) {c : Codec α} {p : α → Prop} (hc : c.Tight p) :
    (vec e c).Tight fun v => v.length < 2 ^ 64 ∧ ∀ a ∈ v, p a := by
  intro l v rest h
  simp only [vec, Option.bind_eq_some_iff] at h
  obtain ⟨⟨n, r1⟩, h1, h2⟩ := h
  obtain ⟨hn, u, rfl, lu, eu⟩ := u64_tight e _ _ _ h1
  obtain ⟨hl, hp, x, hx, lx, ex⟩ := decN_tight hc _ _ _ _ h2
  dsimp only at hx hl
  subst hx hl
  refine ⟨⟨hn, hp⟩, u ++ x, by rw [List.append_assoc], ?_, fun he => ?_⟩
  · simp only [vec, List.length_append]; omega
  · simp only [vec, List.length_append] at he ⊢
    rw [eu (by omega), ex (by omega)]

theorem intLen_mono (e : IntEnc) {a b : Nat} (h : a ≤ b) : ((u64 e).enc a).length ≤ ((u64 e).enc b).length := by
  cases e
  · simp [u64]
  · simp only [u64]
    rw [varint_len, varint_len]
    split_ifs <;> omega

theorem field_tight (e : IntEnc) : (field e).Tight fun _ => True := by
  intro l x rest h
  simp only [field, Option.bind_eq_some_iff] at h
  obtain ⟨⟨n, r1⟩, h1, ⟨b, r2⟩, h2, h3⟩ := h
  obtain ⟨-, u, rfl, lu, eu⟩ := u64_tight e _ _ _ h1
  obtain ⟨e2, hb⟩ := takeBytes_some h2
  dsimp only at e2 hb h3
  split_ifs at h3 with hc
  cases h3
  subst e2
  have hm := intLen_mono e hc.1
  have hf := encodeField_length ((leNat (b.take 16) : Nat) : Field128)
  refine ⟨trivial, u ++ b, by rw [List.append_assoc], ?_, fun he => ?_⟩
  · simp only [field, List.length_append]; omega
  · simp only [field, List.length_append] at he ⊢
    have hn : n = 16 := by omega
    subst hn
    have h16 : b.take 16 = b := List.take_of_length_le (by omega)
    rw [eu (by omega), h16]
    congr 1
    unfold encodeField
    rw [h16] at hc
    rw [ZMod.val_natCast_of_lt hc.2]
    have := natLE_leNat b
    rw [hb] at this
    exact this.symm

/-- Bytes behind the 16 of a field element are skipped. -/
theorem field_padded (e : IntEnc) (x : Field128) {m : Nat} (hm : 16 + m < 2 ^ 64) (rest : List Byte) :
    (field e).dec (((u64 e).enc (16 + m) ++ (encodeField x ++ List.replicate m 0#8)) ++ rest) = some (x, rest) := by
  have hl := encodeField_length x
  have ht := takeBytes_append (encodeField x ++ List.replicate m 0#8) rest
  rw [List.length_append, hl, List.length_replicate] at ht
  have h16 : (encodeField x ++ List.replicate m 0#8).take 16 = encodeField x := by
    rw [List.take_append_of_le_length (by omega), List.take_of_length_le (by omega)]
  simp only [field]
  rw [List.append_assoc, u64_lawful e _ hm, Option.bind_some]
  dsimp only
  rw [ht, Option.bind_some]
  dsimp only
  rw [h16, leNat_encodeField, if_pos ⟨by omega, ZMod.val_lt x⟩]
  simp

open Spec

theorem word_of {n : Nat} (h : n < 2 ^ 64) : word n = true := decide_eq_true h

theorem corWord_tight (e : IntEnc) : (corWord e).Tight fun w => w.word.length < 2 ^ 64 :=
  via_tight (pair_tight (array_tight 16) (pair_tight (pair_tight bool_tight bool_tight) (vec_tight e (field_tight e))))
    (fun _ => rfl) fun _ h => h.2.2.1

theorem vidpfKey_tight (e : IntEnc) : (vidpfKey e).Tight KeyFits :=
  via_tight (pair_tight bool_tight (pair_tight (array_tight 16) (pair_tight (vec_tight e (corWord_tight e))
    (vec_tight e (array_tight 16))))) (fun _ => rfl) fun _ h => ⟨h.2.2.1.1, h.2.2.1.2, h.2.2.2.1⟩

/-- An enumeration: the index, then the fields. -/
theorem tagged_tight {e : IntEnc} {t : Nat} {c : Codec α} {p : α → Prop} (hc : c.Tight p) {l rest r : List Byte} {a : α}
    (h1 : (tag e).dec l = some (t, r)) (h2 : c.dec r = some (a, rest)) :
    p a ∧ ∃ used, l = used ++ rest ∧ ((tag e).enc t ++ c.enc a).length ≤ used.length ∧
      (used.length = ((tag e).enc t ++ c.enc a).length → used = (tag e).enc t ++ c.enc a) := by
  obtain ⟨-, u, rfl, lu, eu⟩ := tag_tight e _ _ _ h1
  obtain ⟨pa, v, rfl, lv, ev⟩ := hc _ _ _ h2
  refine ⟨pa, u ++ v, by rw [List.append_assoc], ?_, fun he => ?_⟩
  · simp only [List.length_append]; omega
  · simp only [List.length_append] at he
    rw [eu (by omega), ev (by omega)]

theorem reportShare_tight (e : IntEnc) : (reportShare e).Tight fun r => shareFits r = true := by
  intro l a rest h
  simp only [reportShare, Option.bind_eq_some_iff] at h
  obtain ⟨⟨t, r⟩, h1, h2⟩ := h
  dsimp only at h2
  split at h2
  · simp only [Option.map_eq_some_iff] at h2
    obtain ⟨⟨⟨n, k, p, j⟩, r2⟩, h2, h3⟩ := h2
    cases h3
    obtain ⟨⟨-, hk, hp, -⟩, rest⟩ := tagged_tight (pair_tight (array_tight 16) (pair_tight (vidpfKey_tight e)
      (pair_tight (vec_tight e (field_tight e)) (pair_tight (array_tight 16) (array_tight 16))))) h1 h2
    refine ⟨?_, rest⟩
    simp only [shareFits, Bool.and_eq_true, List.all_eq_true]
    exact ⟨⟨⟨word_of hk.1, word_of hk.2.2⟩, fun w hw => word_of (hk.2.1 w hw)⟩, word_of hp.1⟩
  · simp only [Option.map_eq_some_iff] at h2
    obtain ⟨⟨⟨n, pub, inp⟩, r2⟩, h2, h3⟩ := h2
    cases h3
    obtain ⟨⟨-, hk, hp⟩, rest⟩ := tagged_tight (pair_tight (array_tight 16) (pair_tight (vec_tight e byte_tight)
      (vec_tight e byte_tight))) h1 h2
    refine ⟨?_, rest⟩
    simp only [shareFits, Bool.and_eq_true]
    exact ⟨word_of hk.1, word_of hp.1⟩
  · cases h2

theorem range_tight (e : IntEnc) : (rangeCodec e).Tight fun p => p.1 < 2 ^ 64 ∧ p.2 < 2 ^ 64 :=
  pair_tight (u64_tight e) (u64_tight e)

/-- A request without fields. -/
def nothing : Codec Unit := ⟨fun _ => [], fun l => some ((), l)⟩

theorem nothing_tight : nothing.Tight fun _ => True := by
  intro l a rest h
  cases h
  exact ⟨trivial, [], rfl, le_rfl, fun _ => rfl⟩

theorem req_tight (e : IntEnc) : (reqCodec e).Tight fun r => reqFits r = true := by
  intro l a rest h
  simp only [reqCodec, Option.bind_eq_some_iff] at h
  obtain ⟨⟨t, r⟩, h1, h2⟩ := h
  dsimp only at h2
  unfold decReqBody at h2
  have hw : ∀ {x : List Nat}, (∀ n ∈ x, n < 2 ^ 64) → x.all word = true := fun h =>
    List.all_eq_true.2 fun n hn => word_of (h n hn)
  have hws : ∀ {γ : Type} {p : γ → Prop} {x : List (List γ)}, (∀ v ∈ x, v.length < 2 ^ 64 ∧ ∀ a ∈ v, p a) →
      (x.all fun v => word v.length) = true := fun h => List.all_eq_true.2 fun v hv => word_of (h v hv).1
  split at h2
  · cases h2
    obtain ⟨-, rest⟩ := tagged_tight (t := 0) nothing_tight h1 rfl
    exact ⟨rfl, rest⟩
  · obtain ⟨⟨q, r2⟩, h4, h3⟩ := Option.map_eq_some_iff.1 h2
    cases h3
    obtain ⟨hp, rest⟩ := tagged_tight (pair_tight (array_tight 16) (u64_tight e)) h1 h4
    exact ⟨word_of hp.2, rest⟩
  · obtain ⟨⟨q, r2⟩, h4, h3⟩ := Option.map_eq_some_iff.1 h2
    cases h3
    obtain ⟨hp, rest⟩ := tagged_tight (vec_tight e (reportShare_tight e)) h1 h4
    exact ⟨by simp only [reqFits, Bool.and_eq_true, List.all_eq_true]; exact ⟨word_of hp.1, hp.2⟩, rest⟩
  · obtain ⟨⟨q, r2⟩, h4, h3⟩ := Option.map_eq_some_iff.1 h2
    cases h3
    obtain ⟨hp, rest⟩ := tagged_tight (range_tight e) h1 h4
    exact ⟨by simp only [reqFits, Bool.and_eq_true]; exact ⟨word_of hp.1, word_of hp.2⟩, rest⟩
  · obtain ⟨⟨q, r2⟩, h4, h3⟩ := Option.map_eq_some_iff.1 h2
    cases h3
    obtain ⟨hp, rest⟩ := tagged_tight (vec_tight e bool_tight) h1 h4
    exact ⟨word_of hp.1, rest⟩
  · obtain ⟨⟨q, r2⟩, h4, h3⟩ := Option.map_eq_some_iff.1 h2
    cases h3
    obtain ⟨hp, rest⟩ := tagged_tight (pair_tight (u64_tight e) (pair_tight (vec_tight e (u64_tight e)) bool_tight)) h1 h4
    exact ⟨by simp only [reqFits, Bool.and_eq_true]; exact ⟨⟨word_of hp.1, word_of hp.2.1.1⟩, hw hp.2.1.2⟩, rest⟩
  · cases h2
    obtain ⟨-, rest⟩ := tagged_tight (t := 6) nothing_tight h1 rfl
    exact ⟨rfl, rest⟩
  · obtain ⟨⟨q, r2⟩, h4, h3⟩ := Option.map_eq_some_iff.1 h2
    cases h3
    obtain ⟨hp, rest⟩ := tagged_tight (range_tight e) h1 h4
    exact ⟨by simp only [reqFits, Bool.and_eq_true]; exact ⟨word_of hp.1, word_of hp.2⟩, rest⟩
  · obtain ⟨⟨q, r2⟩, h4, h3⟩ := Option.map_eq_some_iff.1 h2
    cases h3
    obtain ⟨hp, rest⟩ := tagged_tight (vec_tight e bool_tight) h1 h4
    exact ⟨word_of hp.1, rest⟩
  · cases h2
    obtain ⟨-, rest⟩ := tagged_tight (t := 9) nothing_tight h1 rfl
    exact ⟨rfl, rest⟩
  · obtain ⟨⟨q, r2⟩, h4, h3⟩ := Option.map_eq_some_iff.1 h2
    cases h3
    obtain ⟨hp, rest⟩ := tagged_tight (pair_tight (vec_tight e (vec_tight e bool_tight)) (range_tight e)) h1 h4
    exact ⟨by
      simp only [reqFits, Bool.and_eq_true]
      exact ⟨⟨⟨word_of hp.1.1, hws hp.1.2⟩, word_of hp.2.1⟩, word_of hp.2.2⟩, rest⟩
  · obtain ⟨⟨q, r2⟩, h4, h3⟩ := Option.map_eq_some_iff.1 h2
    cases h3
    obtain ⟨hp, rest⟩ := tagged_tight (pair_tight (vec_tight e (u64_tight e)) (pair_tight (u64_tight e) (range_tight e)))
      h1 h4
    exact ⟨by
      simp only [reqFits, Bool.and_eq_true]
      exact ⟨⟨⟨⟨word_of hp.1.1, hw hp.1.2⟩, word_of hp.2.1⟩, word_of hp.2.2.1⟩, word_of hp.2.2.2⟩, rest⟩
  · obtain ⟨⟨q, r2⟩, h4, h3⟩ := Option.map_eq_some_iff.1 h2
    cases h3
    obtain ⟨hp, rest⟩ := tagged_tight (range_tight e) h1 h4
    exact ⟨by simp only [reqFits, Bool.and_eq_true]; exact ⟨word_of hp.1, word_of hp.2⟩, rest⟩
  · obtain ⟨⟨q, r2⟩, h4, h3⟩ := Option.map_eq_some_iff.1 h2
    cases h3
    obtain ⟨hp, rest⟩ := tagged_tight (pair_tight (vec_tight e (vec_tight e byte_tight)) (range_tight e)) h1 h4
    exact ⟨by
      simp only [reqFits, Bool.and_eq_true]
      exact ⟨⟨⟨word_of hp.1.1, hws hp.1.2⟩, word_of hp.2.1⟩, word_of hp.2.2⟩, rest⟩
  · cases h2

end Codec

variable {P : Prims}

/-- The reports stored after a request. -/
def storedAfter (old : List ReportShare) : Req → List ReportShare
  | .reset .. => []
  | .addReportShares rs => old ++ rs
  | _ => old

/-- Only uploads and resets change which reports are stored. -/
theorem locked_stored {cfg : ServerCfg} {kc kc' : KeyCollection P} {req : Req} {resp : Resp}
    (h : locked cfg kc req = .ok (kc', resp)) :
    kc'.reportShares.map Prod.snd = storedAfter (kc.reportShares.map Prod.snd) req := by
  cases req with
  | reset vk b =>
    simp only [locked] at h
    obtain ⟨kc1, h1, h⟩ := bind_eq_ok.1 h
    cases h
    unfold srvReset at h1
    split at h1
    · cases h1; rfl
    · cases h1
  | addReportShares rs =>
    simp only [locked] at h; cases h
    rw [srvAdd_eq]
    simp [storedAfter]
  | treeInit =>
    simp only [locked] at h
    obtain ⟨kc1, h1, h⟩ := bind_eq_ok.1 h
    cases h
    obtain ⟨keys, -, rfl⟩ := treeInit_ok h1
    rfl
  | treeCrawl s m l =>
    simp only [locked] at h
    obtain ⟨⟨kc1, r⟩, h1, h⟩ := bind_eq_ok.1 h
    cases h
    obtain ⟨kc2, next, digests, rs, hp, -, -, rfl, -⟩ := treeCrawl_ok h1
    obtain ⟨reports, fr, rfl, hs, -, -, -⟩ := crawlPrep_ok hp
    exact hs
  | runFlpQueries s e =>
    simp only [locked] at h
    obtain ⟨_, -, h⟩ := bind_eq_ok.1 h
    obtain ⟨_, -, h⟩ := bind_eq_ok.1 h
    cases h
    rfl
  | applyFlpResults keep =>
    simp only [locked] at h
    obtain ⟨kc1, h1, h⟩ := bind_eq_ok.1 h
    cases h
    obtain ⟨reports, rfl, hs, -⟩ := applyFlpResults_ok h1
    exact hs
  | treeCrawlLast =>
    simp only [locked] at h
    obtain ⟨⟨kc1, r⟩, h1, h⟩ := bind_eq_ok.1 h
    cases h
    obtain ⟨next, proofs, -, -, rfl, -⟩ := treeCrawlLast_ok h1
    rfl
  | getProofs s e =>
    simp only [locked] at h
    obtain ⟨_, -, h⟩ := bind_eq_ok.1 h
    cases h
    rfl
  | treePrune keep =>
    simp only [locked] at h
    obtain ⟨kc1, h1, h⟩ := bind_eq_ok.1 h
    cases h
    rw [treePrune_spec] at h1
    split at h1
    · cases h1; rfl
    · cases h1
  | finalShares =>
    simp only [locked] at h; cases h
    rfl
  | abmValidate a s e =>
    simp only [locked] at h
    obtain ⟨⟨kc1, r⟩, h1, h⟩ := bind_eq_ok.1 h
    cases h
    unfold srvAbmValidate at h1
    obtain ⟨_, -, h1⟩ := bind_eq_ok.1 h1
    obtain ⟨_, -, h1⟩ := bind_eq_ok.1 h1
    cases h1
    rfl
  | abmResult rej n s e =>
    simp only [locked] at h
    obtain ⟨⟨kc1, r⟩, h1, h⟩ := bind_eq_ok.1 h
    cases h
    unfold srvAbmResult at h1
    obtain ⟨_, -, h1⟩ := bind_eq_ok.1 h1
    cases h1
    rfl
  | pmValidate s e =>
    simp only [locked] at h
    obtain ⟨⟨kc1, r⟩, h1, h⟩ := bind_eq_ok.1 h
    cases h
    unfold srvPmValidate at h1
    obtain ⟨_, -, h1⟩ := bind_eq_ok.1 h1
    obtain ⟨_, -, h1⟩ := bind_eq_ok.1 h1
    split at h1
    · cases h1
    · obtain ⟨_, -, h1⟩ := bind_eq_ok.1 h1
      cases h1
      rfl
  | pmResult peers s e =>
    simp only [locked] at h
    obtain ⟨⟨kc1, a, n⟩, h1, h⟩ := bind_eq_ok.1 h
    cases h
    unfold srvPmResult at h1
    split at h1
    · cases h1
    · obtain ⟨_, -, h1⟩ := bind_eq_ok.1 h1
      obtain ⟨_, -, h1⟩ := bind_eq_ok.1 h1
      obtain ⟨_, -, h1⟩ := bind_eq_ok.1 h1
      cases h1
      rfl

theorem storedBytes_eq (r : List (Bool × ReportShare)) :
    Spec.storedBytes r = ((r.map Prod.snd).map fun s => ((reportShare .varint).enc s).length).sum := by
  rw [Spec.storedBytes, List.map_map]
  rfl

theorem flatten_length_sum {α : Type} (c : Codec α) (v : List α) :
    ((v.map c.enc).flatten).length = (v.map fun a => (c.enc a).length).sum := by
  rw [List.length_flatten, List.map_map]
  rfl

theorem readFrame_some {l : List Byte} {r : Req} (h : readFrame l = some r) :
    (reqCodec .varint).dec l = some (r, []) := by
  unfold readFrame at h
  split at h
  · rename_i h1
    cases h
    exact h1
  · cases h

end Mastic
