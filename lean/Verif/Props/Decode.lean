import Verif.Lemmas.Decode
import Verif.Spec.Server
import Verif.Lemmas.ToySearch
import Verif.Lemmas.Repeat

/-!
# C109: servers that receive arbitrary bytes

Anybody can connect to a server and send frames (`src/bin/server.rs:339-360`).
-/

namespace Mastic

open Codec Spec

variable {P : Prims}

/-- **C109, what can be read.** Whatever bytes arrive: what a server reads from them is a value of the Rust type, its
own encoding is not longer than the part that was read, and it is this encoding if that part is not longer. -/
theorem C109_read {e : IntEnc} {l rest : List Byte} {r : Req} (h : (reqCodec e).dec l = some (r, rest)) :
    reqFits r = true ∧ ∃ used, l = used ++ rest ∧ ((reqCodec e).enc r).length ≤ used.length ∧
      (used.length = ((reqCodec e).enc r).length → used = (reqCodec e).enc r) :=
  req_tight e l r rest h

/-- **C109, the shortest message.** Among all frames that are read as the same request, the one that the driver sends
is the only shortest one.  Missing from the last clause of C109: that there are no longer ones (`C109_false_unique`). -/
theorem C109_shortest_partial {l : List Byte} {r : Req} (h : readFrame l = some r) :
    readFrame ((reqCodec .varint).enc r) = some r ∧
      (l = (reqCodec .varint).enc r ∨ ((reqCodec .varint).enc r).length < l.length) := by
  obtain ⟨hf, used, hu, hle, heq⟩ := C109_read (readFrame_some h)
  rw [List.append_nil] at hu
  subst hu
  constructor
  · have := req_lawful .varint r hf []
    rw [List.append_nil] at this
    unfold readFrame
    rw [this]
  · rcases Nat.lt_or_ge ((reqCodec .varint).enc r).length l.length with h1 | h1
    · exact .inr h1
    · exact .inl (heq (by omega))

/-- The shortest frame for a query is not the only one. -/
example : readFrame [7#8, 0#8, 5#8] = some (.getProofs 0 5) ∧
    readFrame [7#8, 251#8, 0#8, 0#8, 5#8] = some (.getProofs 0 5) ∧
    (reqCodec .varint).enc (.getProofs 0 5) = [7#8, 0#8, 5#8] ∧ readFrame [7#8, 0#8, 5#8, 0#8] = none ∧
    readFrame [14#8] = none :=
  ⟨rfl, rfl, rfl, rfl, rfl⟩

/-- **C109, a message has only one encoding: false**, with both ways of writing integers.  The first element of the
proof of the first report may be followed by any bytes, if its length says so. -/
theorem C109_false_unique (e : IntEnc) {n : Block} {k : VidpfKey} {x : Field128} {p : List Field128} {j : Block × Block}
    {rs : List ReportShare} (hf : reqFits (.addReportShares (.mastic n k (x :: p) j :: rs)) = true) {m : Nat}
    (hm : m < 2 ^ 32) :
    ∃ l, (reqCodec e).dec l = some (.addReportShares (.mastic n k (x :: p) j :: rs), []) ∧
      ((reqCodec e).enc (.addReportShares (.mastic n k (x :: p) j :: rs))).length + m ≤ l.length := by
  simp only [reqFits, List.all_cons, Bool.and_eq_true, shareFits, List.all_eq_true] at hf
  obtain ⟨h1, ⟨⟨⟨h2, h3⟩, h4⟩, h5⟩, h6⟩ := hf
  refine ⟨(tag e).enc 2 ++ ((u64 e).enc (rs.length + 1) ++ ((tag e).enc 0 ++ ((array 16).enc n ++ ((vidpfKey e).enc k ++
    ((u64 e).enc (p.length + 1) ++ (((u64 e).enc (16 + m) ++ (encodeField x ++ List.replicate m 0#8)) ++
      ((p.map (field e).enc).flatten ++ ((array 16).enc j.1 ++ ((array 16).enc j.2 ++
        ((rs.map (reportShare e).enc).flatten ++ [])))))))))), ?_, ?_⟩
  · simp only [reqCodec]
    rw [tag_lawful e 2 (by norm_num), Option.bind_some]
    simp only [decReqBody, vec]
    rw [u64_lawful e _ (by simpa using word_lt h1), Option.bind_some]
    simp only [decN, reportShare]
    rw [tag_lawful e 0 (by norm_num), Option.bind_some]
    simp only [masticShare, pair]
    rw [array_lawful 16 n trivial, Option.bind_some]
    dsimp only
    rw [vidpfKey_lawful e k ⟨word_lt h2, fun w hw => word_lt (h4 w hw), word_lt h3⟩, Option.bind_some]
    simp only [vec]
    rw [u64_lawful e _ (by simpa using word_lt h5), Option.bind_some]
    simp only [decN]
    rw [field_padded e x (by omega), Option.bind_some]
    dsimp only
    rw [decN_lawful (field_lawful e) p (fun _ _ => trivial), Option.map_some, Option.bind_some]
    dsimp only
    rw [array_lawful 16 j.1 trivial, Option.bind_some]
    dsimp only
    rw [array_lawful 16 j.2 trivial]
    simp only [Option.map_some, Option.bind_some]
    exact congrArg (fun z => Option.map (fun q => (Req.addReportShares q.1, q.2))
      (Option.map (fun q => (ReportShare.mastic n k (x :: p) (j.1, j.2) :: q.1, q.2)) z))
      (decN_lawful (reportShare_lawful e) rs h6 [])
  · simp only [reqCodec, Req.encBody, Req.tag, vec, reportShare, masticShare, pair, field, List.length_append,
      List.length_cons, List.map_cons, List.flatten_cons, List.length_replicate, List.length_nil]
    have := intLen_mono e (show 16 ≤ 16 + m by omega)
    omega

/-- The hypothesis of `C109_false_unique`. -/
example : reqFits (.addReportShares (.mastic Block.zero ⟨false, Block.zero, [⟨Block.zero, (true, false), [3]⟩],
    [Block.zero]⟩ (1 :: [2]) (Block.zero, Block.zero) :: [.prio3 Block.zero [] [1#8]])) = true := by
  decide +kernel

/-- **C109, bytes are requests.** Whatever frames a server receives, its state is that after a history of requests
that the Rust types can hold: everything proved of reachable states holds. -/
theorem C109_frames (cfg : ServerCfg) : ∀ (s : Server P) (ls : List (List Byte)),
    s.frames cfg ls = (Server.run cfg s (ls.filterMap readFrame)).1 ∧
      ∀ r ∈ ls.filterMap readFrame, reqFits r = true
  | s, [] => ⟨rfl, by simp⟩
  | s, l :: ls => by
    obtain ⟨h1, h2⟩ := C109_frames cfg (s.frame cfg l) ls
    rw [Server.frames, h1, List.filterMap_cons]
    unfold Server.frame
    cases hr : readFrame l with
    | none => exact ⟨rfl, h2⟩
    | some r =>
      refine ⟨rfl, fun q hq => ?_⟩
      rcases List.mem_cons.1 hq with rfl | hq
      · exact (C109_read (readFrame_some hr)).1
      · exact h2 q hq

/-- **C109, memory.** The reports that a server stores are never larger than all frames that it received together: no
message unpacks to more than it is. -/
theorem C109_memory {cfg : ServerCfg} {ls : List (List Byte)} : ∀ {kc kc' : KeyCollection P},
    Server.frames cfg (.running kc) ls = .running kc' →
    storedBytes kc'.reportShares ≤ storedBytes kc.reportShares + (ls.map List.length).sum := by
  induction ls with
  | nil =>
    intro kc kc' h
    cases h
    simp
  | cons l ls ih =>
    intro kc kc' h
    rw [Server.frames] at h
    unfold Server.frame at h
    cases hr : readFrame l with
    | none =>
      rw [hr] at h
      have := ih h
      simp only [List.map_cons, List.sum_cons]
      omega
    | some r =>
      rw [hr] at h
      dsimp only at h
      obtain ⟨-, used, hu, hle, -⟩ := C109_read (readFrame_some hr)
      rw [List.append_nil] at hu
      subst hu
      cases hs : (Server.handle cfg (.running kc) r).1 with
      | poisoned =>
        rw [hs, (C109_frames cfg _ ls).1, run_poisoned] at h
        cases h
      | running k =>
        rw [hs] at h
        have h2 := ih h
        have h3 : storedBytes k.reportShares ≤ storedBytes kc.reportShares + l.length := by
          obtain ⟨kc1, e1, h3⟩ := handle_running hs
          cases e1
          rcases h3 with rfl | ⟨a, h3⟩
          · omega
          · have h4 := locked_stored h3
            rw [storedBytes_eq, storedBytes_eq, h4]
            cases r with
            | addReportShares rs =>
              rw [storedAfter, List.map_append, List.sum_append, ← flatten_length_sum (reportShare .varint) rs]
              simp only [reqCodec, Req.encBody, vec, List.length_append] at hle
              omega
            | reset => simp [storedAfter]
            | _ => simp only [storedAfter]; omega
        simp only [List.map_cons, List.sum_cons]
        omega

/-- The hypotheses of `C109_memory`: an upload by frame, then garbage and a query. -/
example : ∃ kc', Server.frames (P := toy) (toyCfg 0 (some 2) .debug)
      (Server.start toy (toyCfg 0 (some 2) .debug) 2)
      [(reqCodec .varint).enc (.addReportShares [.prio3 Block.zero [1#8] [2#8, 3#8]]), [255#8, 1#8], [9#8]]
      = .running kc' ∧
    kc'.reportShares.length = 1 ∧ storedBytes kc'.reportShares = 22 := by
  refine ⟨_, rfl, ?_, ?_⟩ <;> decide +kernel

end Mastic
