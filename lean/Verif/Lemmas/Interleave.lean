import Verif.Lemmas.System
import Mathlib.Data.DFinsupp.WellFounded
import Mathlib.SetTheory.Ordinal.Rank
import Mathlib.Logic.Relation

/-!
# Helper lemmas: executions of the system in any order
-/

namespace Mastic

open Relation

variable {P : Prims} {ι α : Type} [DecidableEq ι] {c : Bool → ServerCfg}

/-- The request for server `b`. -/
def pick (r0 r1 : Req) (b : Bool) : Req := if b then r1 else r0

/-- Both servers have handled their requests. -/
def handleBoth (c : Bool → ServerCfg) (srv : Bool → Server P) (r0 r1 : Req) : Bool → Server P :=
  fun b => ((srv b).handle (c b) (pick r0 r1 b)).1

/-- The answer of server `b`. -/
def answer (c : Bool → ServerCfg) (srv : Bool → Server P) (r0 r1 : Req) (b : Bool) : Exec Resp :=
  ((srv b).handle (c b) (pick r0 r1 b)).2

/-- A number of completed requests, both servers at a time. -/
inductive Seq (c : Bool → ServerCfg) : Prog α → (Bool → Server P) → Prog α → (Bool → Server P) → Prop
  | refl (p : Prog α) (srv : Bool → Server P) : Seq c p srv p srv
  | step (p : Prog α) (srv0 srv : Bool → Server P) (r0 r1 : Req) (k : Resp → Resp → Prog α) (a0 a1 : Resp)
      (h : Seq c p srv0 (.ask r0 r1 k) srv) (h0 : answer c srv r0 r1 false = .ok a0)
      (h1 : answer c srv r0 r1 true = .ok a1) : Seq c p srv0 (k a0 a1) (handleBoth c srv r0 r1)

/-- Where a system is, relative to the last completed request of driver `i`. -/
inductive InFlight (c : Bool → ServerCfg) (i : ι) (p : Prog α) (srv : Bool → Server P) (s : Sys P ι α) : Prop
  | ready (h : s.drv i = .ready p) (hs : s.srv = srv)
  | waiting (r0 r1 : Req) (k : Resp → Resp → Prog α) (calls : Bool → Call) (hp : p = .ask r0 r1 k)
      (h : s.drv i = .waiting calls k)
      (hs : ∀ b, (calls b = .sent (pick r0 r1 b) ∧ s.srv b = srv b) ∨
        (calls b = Call.of (answer c srv r0 r1 b) ∧ s.srv b = handleBoth c srv r0 r1 b))
  | crashed (r0 r1 : Req) (k : Resp → Resp → Prog α) (b : Bool) (e : Panic) (st : Option (Bool × Req))
      (hp : p = .ask r0 r1 k) (h : s.drv i = .crashed st) (he : answer c srv r0 r1 b = .error e)
      (hb : s.srv b = handleBoth c srv r0 r1 b)
      (hs : (s.srv (!b) = srv (!b) ∧ (st = none ∨ st = some (!b, pick r0 r1 (!b)))) ∨
        (s.srv (!b) = handleBoth c srv r0 r1 (!b) ∧ st = none))

theorem call_of_answered {e : Exec Resp} {a : Resp} (h : Call.of e = .answered a) : e = .ok a := by
  cases e <;> simp_all [Call.of]

theorem call_of_failed {e : Exec Resp} (h : Call.of e = .failed) : ∃ p, e = .error p := by
  cases e <;> simp_all [Call.of]

theorem call_of_ne_sent {e : Exec Resp} {r : Req} : Call.of e ≠ .sent r := by
  cases e <;> simp [Call.of]

theorem drive_drv (s : Sys P ι α) (i : ι) (d : Drv α) : (s.drive i d).drv i = d := by simp [Sys.drive]
theorem drive_srv (s : Sys P ι α) (i : ι) (d : Drv α) : (s.drive i d).srv = s.srv := rfl
theorem drive_other (s : Sys P ι α) {i j : ι} (d : Drv α) (h : j ≠ i) : (s.drive i d).drv j = s.drv j := by
  simp [Sys.drive, h]
theorem handle_drv (s : Sys P ι α) (b : Bool) (r : Req) : (s.handle c b r).drv = s.drv := rfl
theorem handle_srv (s : Sys P ι α) (b : Bool) (r : Req) :
    (s.handle c b r).srv b = ((s.srv b).handle (c b) r).1 := by simp [Sys.handle]
theorem handle_srv_not (s : Sys P ι α) (b : Bool) (r : Req) : (s.handle c b r).srv (!b) = s.srv (!b) := by
  simp [Sys.handle]

theorem bool_or (b b' : Bool) : b' = b ∨ b' = !b := by cases b <;> cases b' <;> simp

/-- Every step on behalf of driver `i` keeps the system where a sequential run of that driver could be. -/
theorem at_step {i : ι} {p0 : Prog α} {srv0 : Bool → Server P} {s s' : Sys P ι α} {p : Prog α}
    {srv : Bool → Server P} (hseq : Seq c p0 srv0 p srv) (ha : InFlight c i p srv s) (h : StepBy c i s s') :
    ∃ p' srv', Seq c p0 srv0 p' srv' ∧ InFlight c i p' srv' s' := by
  cases h with
  | send r0 r1 k h =>
    cases ha with
    | ready h' hs =>
      rw [h'] at h
      cases h
      exact ⟨_, srv, hseq, .waiting r0 r1 k _ rfl (drive_drv ..) fun b => .inl ⟨rfl, by rw [drive_srv, hs]⟩⟩
    | waiting _ _ _ _ _ h' _ => rw [h'] at h; cases h
    | crashed _ _ _ _ _ _ _ h' _ _ _ => rw [h'] at h; cases h
  | serve b calls k r h hc =>
    cases ha with
    | ready h' _ => rw [h'] at h; cases h
    | crashed _ _ _ _ _ _ _ h' _ _ _ => rw [h'] at h; cases h
    | waiting r0 r1 k' calls' hp h' hs =>
      rw [h'] at h
      cases h
      refine ⟨p, srv, hseq, .waiting r0 r1 _ _ hp (drive_drv ..) fun b' => ?_⟩
      rcases hs b with ⟨g1, g2⟩ | ⟨g1, -⟩
      · rw [hc] at g1
        cases g1
        rcases bool_or b b' with rfl | rfl
        · right
          rw [Function.update_self, drive_srv, handle_srv, g2]
          exact ⟨rfl, rfl⟩
        · rw [Function.update_of_ne (by simp), drive_srv, handle_srv_not]
          exact hs _
      · rw [hc] at g1
        exact absurd g1.symm call_of_ne_sent
  | receive calls k a0 a1 h h0 h1 =>
    cases ha with
    | ready h' _ => rw [h'] at h; cases h
    | crashed _ _ _ _ _ _ _ h' _ _ _ => rw [h'] at h; cases h
    | waiting r0 r1 k' calls' hp h' hs =>
      rw [h'] at h
      cases h
      subst hp
      have key : ∀ b a, calls b = .answered a →
          answer c srv r0 r1 b = .ok a ∧ s.srv b = handleBoth c srv r0 r1 b := by
        intro b a hb
        rcases hs b with ⟨g, -⟩ | ⟨g1, g2⟩
        · rw [hb] at g; cases g
        · rw [hb] at g1
          exact ⟨call_of_answered g1.symm, g2⟩
      obtain ⟨e0, f0⟩ := key false a0 h0
      obtain ⟨e1, f1⟩ := key true a1 h1
      refine ⟨_, _, .step _ _ _ _ _ _ _ _ hseq e0 e1, .ready (drive_drv ..) ?_⟩
      rw [drive_srv]
      funext b
      cases b
      · exact f0
      · exact f1
  | fail b calls k h hc =>
    cases ha with
    | ready h' _ => rw [h'] at h; cases h
    | crashed _ _ _ _ _ _ _ h' _ _ _ => rw [h'] at h; cases h
    | waiting r0 r1 k' calls' hp h' hs =>
      rw [h'] at h
      cases h
      rcases hs b with ⟨g, -⟩ | ⟨g1, g2⟩
      · rw [hc] at g; cases g
      · rw [hc] at g1
        obtain ⟨e, he⟩ := call_of_failed g1.symm
        refine ⟨p, srv, hseq, .crashed r0 r1 _ b e _ hp (drive_drv ..) he g2 ?_⟩
        rw [drive_srv]
        rcases hs (!b) with ⟨f1, f2⟩ | ⟨f1, f2⟩
        · left
          exact ⟨f2, .inr (by simp [strayOf, f1])⟩
        · right
          refine ⟨f2, ?_⟩
          unfold strayOf
          cases hn : calls (!b) with
          | sent r => rw [hn] at f1; exact absurd f1.symm call_of_ne_sent
          | answered a => rfl
          | failed => rfl
  | stray b r h =>
    cases ha with
    | ready h' _ => rw [h'] at h; cases h
    | waiting _ _ _ _ _ h' _ => rw [h'] at h; cases h
    | crashed r0 r1 k b' e st hp h' he hb hs =>
      rw [h'] at h
      cases h
      rcases hs with ⟨f, g | g⟩ | ⟨-, g⟩
      · cases g
      · cases g
        refine ⟨p, srv, hseq, .crashed r0 r1 k b' e _ hp (drive_drv ..) he ?_ (.inr ⟨?_, rfl⟩)⟩
        · rw [drive_srv]
          have := handle_srv_not (c := c) s (!b') (pick r0 r1 (!b'))
          rw [Bool.not_not] at this
          rw [this, hb]
        · rw [drive_srv, handle_srv, f]
          rfl
      · cases g
  | lost b r h =>
    cases ha with
    | ready h' _ => rw [h'] at h; cases h
    | waiting _ _ _ _ _ h' _ => rw [h'] at h; cases h
    | crashed r0 r1 k b' e st hp h' he hb hs =>
      rw [h'] at h
      cases h
      rcases hs with ⟨f, -⟩ | ⟨-, g⟩
      · exact ⟨p, srv, hseq, .crashed r0 r1 k b' e _ hp (drive_drv ..) he (by rw [drive_srv, hb])
          (.inl ⟨by rw [drive_srv]; exact f, .inl rfl⟩)⟩
      · cases g

theorem at_reach {i : ι} {p0 : Prog α} {s0 s : Sys P ι α} (h0 : s0.drv i = .ready p0)
    (h : ReflTransGen (StepBy c i) s0 s) : ∃ p srv, Seq c p0 s0.srv p srv ∧ InFlight c i p srv s := by
  induction h with
  | refl => exact ⟨p0, s0.srv, .refl _ _, .ready h0 rfl⟩
  | tail _ hs ih =>
    obtain ⟨p, srv, hseq, ha⟩ := ih
    exact at_step hseq ha hs

/-- Steps on behalf of one driver leave the other drivers alone. -/
theorem stepBy_other {i j : ι} (hj : j ≠ i) {s s' : Sys P ι α} (h : StepBy c i s s') : s'.drv j = s.drv j := by
  cases h <;> simp [Sys.drive, Sys.handle, hj]

/-- A running pair of servers. -/
def runningPair (kcs : Pair2 P) : Bool → Server P := fun b => .running (if b then kcs.2 else kcs.1)

theorem handle_running_eq {cfg : ServerCfg} {kc : KeyCollection P} {r : Req} :
    (Server.running kc).handle cfg r = match preLock cfg r with
      | .error p => (.running kc, .error p)
      | .ok () => match locked cfg kc r with
        | .error p => (.poisoned, .error p)
        | .ok (kc', a) => (.running kc', .ok a) := rfl

theorem handle_running_ok {cfg : ServerCfg} {kc : KeyCollection P} {r : Req} {a : Resp}
    (h : ((Server.running kc).handle cfg r).2 = .ok a) :
    ∃ kc', preLock cfg r = .ok () ∧ locked cfg kc r = .ok (kc', a) ∧
      ((Server.running kc).handle cfg r).1 = .running kc' := by
  rw [handle_running_eq] at h ⊢
  cases hp : preLock cfg r with
  | error p => rw [hp] at h; cases h
  | ok u =>
    cases u
    rw [hp] at h
    cases hl : locked cfg kc r with
    | error p => rw [hl] at h; cases h
    | ok x =>
      rw [hl] at h
      cases h
      exact ⟨x.1, rfl, rfl, rfl⟩

theorem handle_running_error {cfg : ServerCfg} {kc : KeyCollection P} {r : Req} {e : Panic}
    (h : ((Server.running kc).handle cfg r).2 = .error e) :
    preLock cfg r = .error e ∨ (preLock cfg r = .ok () ∧ locked cfg kc r = .error e ∧
      ((Server.running kc).handle cfg r).1 = .poisoned) := by
  rw [handle_running_eq] at h ⊢
  cases hp : preLock cfg r with
  | error p => rw [hp] at h; cases h; exact .inl rfl
  | ok u =>
    cases u
    rw [hp] at h
    cases hl : locked cfg kc r with
    | error p => rw [hl] at h; cases h; exact .inr ⟨rfl, rfl, rfl⟩
    | ok x => rw [hl] at h; cases h

/-- A sequential run against running servers: they stay running and the rest of the run has the same outcome. -/
theorem seq_exec {p0 p : Prog α} {kcs : Pair2 P} {srv : Bool → Server P}
    (h : Seq c p0 (runningPair kcs) p srv) :
    ∃ kcs', srv = runningPair kcs' ∧ p0.exec (c false) (c true) kcs = p.exec (c false) (c true) kcs' := by
  generalize hs : runningPair kcs = srv0 at h
  induction h with
  | refl => exact ⟨kcs, hs.symm, rfl⟩
  | step srv r0 r1 k a0 a1 _ h0 h1 ih =>
    obtain ⟨kcs', rfl, e⟩ := ih
    obtain ⟨k0, p0, l0, n0⟩ := handle_running_ok (show ((Server.running kcs'.1).handle (c false) r0).2 = _ from h0)
    obtain ⟨k1, p1, l1, n1⟩ := handle_running_ok (show ((Server.running kcs'.2).handle (c true) r1).2 = _ from h1)
    refine ⟨(k0, k1), ?_, ?_⟩
    · funext b
      cases b
      · exact n0
      · exact n1
    · rw [e, Prog.exec, p0, l0, p1, l1]
      rfl

/-- A request one server does not answer ends the sequential run. -/
theorem exec_ask_error {r0 r1 : Req} {k : Resp → Resp → Prog α} {kcs : Pair2 P} {b : Bool} {e : Panic}
    (h : answer c (runningPair kcs) r0 r1 b = .error e) :
    ∃ e', (Prog.ask r0 r1 k).exec (c false) (c true) kcs = .error e' := by
  have aux : ∀ {cfg : ServerCfg} {kc : KeyCollection P} {r : Req} {e : Panic},
      ((Server.running kc).handle cfg r).2 = .error e →
      ∃ e', (preLock cfg r >>= fun _ => locked cfg kc r) = .error e' := by
    intro cfg kc r e h
    rcases handle_running_error h with h | ⟨h, h', -⟩
    · exact ⟨e, by rw [h]; rfl⟩
    · exact ⟨e, by rw [h]; exact h'⟩
  rw [Prog.exec]
  cases b with
  | false =>
    obtain ⟨e', he⟩ := aux (show ((Server.running kcs.1).handle (c false) r0).2 = _ from h)
    refine ⟨e', ?_⟩
    rw [← bind_assoc, he]
    rfl
  | true =>
    obtain ⟨e', he⟩ := aux (show ((Server.running kcs.2).handle (c true) r1).2 = _ from h)
    cases h1 : preLock (c false) r0 with
    | error p => exact ⟨p, rfl⟩
    | ok u =>
      cases h2 : locked (c false) kcs.1 r0 with
      | error p => exact ⟨p, rfl⟩
      | ok x =>
        refine ⟨e', ?_⟩
        rw [ok_bind, ok_bind, ← bind_assoc, he]
        rfl

/-- Nothing more happens on behalf of driver `i`. -/
def Stuck (c : Bool → ServerCfg) (i : ι) (s : Sys P ι α) : Prop := ∀ s', ¬ StepBy c i s s'

theorem stuck_cases {i : ι} {s : Sys P ι α} (h : Stuck c i s) :
    (∃ a, s.drv i = .ready (.ret a)) ∨ (∃ p, s.drv i = .ready (.panic p)) ∨ s.drv i = .crashed none := by
  cases hd : s.drv i with
  | ready p =>
    cases p with
    | ret a => exact .inl ⟨a, rfl⟩
    | panic p => exact .inr (.inl ⟨p, rfl⟩)
    | ask r0 r1 k => exact absurd (StepBy.send s r0 r1 k hd) (h _)
  | waiting calls k =>
    exfalso
    cases h0 : calls false with
    | sent r => exact h _ (.serve s false calls k r hd h0)
    | failed => exact h _ (.fail s false calls k hd h0)
    | answered a0 =>
      cases h1 : calls true with
      | sent r => exact h _ (.serve s true calls k r hd h1)
      | failed => exact h _ (.fail s true calls k hd h1)
      | answered a1 => exact h _ (.receive s calls k a0 a1 hd h0 h1)
  | crashed st =>
    cases st with
    | none => exact .inr (.inr rfl)
    | some x => exact absurd (StepBy.lost s x.1 x.2 hd) (h _)

/-! ### Termination -/

/-- What a step can do to the state of a driver, whatever the servers answer. -/
inductive Moves : Drv α → Drv α → Prop
  | send (r0 r1 : Req) (k : Resp → Resp → Prog α) (calls : Bool → Call) : Moves (.ready (.ask r0 r1 k)) (.waiting calls k)
  | serve (b : Bool) (calls : Bool → Call) (k : Resp → Resp → Prog α) (r : Req) (e : Exec Resp)
      (h : calls b = .sent r) : Moves (.waiting calls k) (.waiting (Function.update calls b (Call.of e)) k)
  | receive (calls : Bool → Call) (k : Resp → Resp → Prog α) (a0 a1 : Resp) : Moves (.waiting calls k) (.ready (k a0 a1))
  | fail (calls : Bool → Call) (k : Resp → Resp → Prog α) (st : Option (Bool × Req)) :
      Moves (.waiting calls k) (.crashed st)
  | stray (x : Bool × Req) : Moves (.crashed (some x)) (.crashed none)

theorem stepBy_moves {i : ι} {s s' : Sys P ι α} (h : StepBy c i s s') : Moves (s.drv i) (s'.drv i) := by
  cases h with
  | send r0 r1 k h => rw [h, drive_drv]; exact .send ..
  | serve b calls k r h hc => rw [h, drive_drv]; exact .serve b calls k r _ hc
  | receive calls k a0 a1 h h0 h1 => rw [h, drive_drv]; exact .receive ..
  | fail b calls k h hc => rw [h, drive_drv]; exact .fail ..
  | stray b r h => rw [h, drive_drv]; exact .stray _
  | lost b r h => rw [h, drive_drv]; exact .stray _

theorem acc_crashed (st : Option (Bool × Req)) : Acc (flip Moves) (Drv.crashed st : Drv α) := by
  have h0 : Acc (flip Moves) (Drv.crashed none : Drv α) := ⟨_, fun y h => by cases h⟩
  cases st with
  | none => exact h0
  | some x => exact ⟨_, fun y h => by cases h; exact h0⟩

/-- The number of calls still to be handled. -/
def open2 (calls : Bool → Call) : Nat :=
  (match calls false with | .sent _ => 1 | _ => 0) + (match calls true with | .sent _ => 1 | _ => 0)

theorem open2_update {calls : Bool → Call} {b : Bool} {r : Req} {e : Exec Resp} (h : calls b = .sent r) :
    open2 (Function.update calls b (Call.of e)) < open2 calls := by
  cases b <;> cases e <;> simp [open2, h, Call.of, Function.update]

theorem acc_waiting {k : Resp → Resp → Prog α} (hk : ∀ a b, Acc (flip Moves) (Drv.ready (k a b))) (n : Nat) :
    ∀ calls, open2 calls = n → Acc (flip Moves) (Drv.waiting calls k) := by
  induction n using Nat.strong_induction_on with
  | _ n ih =>
    intro calls hn
    refine ⟨_, fun y h => ?_⟩
    cases h with
    | serve b _ _ r e h => exact ih _ (hn ▸ open2_update h) _ rfl
    | receive _ _ a0 a1 => exact hk a0 a1
    | fail _ _ st => exact acc_crashed st

theorem acc_ready (p : Prog α) : Acc (flip Moves) (Drv.ready p) := by
  induction p with
  | ret a => exact ⟨_, fun y h => by cases h⟩
  | panic p => exact ⟨_, fun y h => by cases h⟩
  | ask r0 r1 k ih =>
    refine ⟨_, fun y h => ?_⟩
    cases h with
    | send _ _ _ calls => exact acc_waiting ih _ calls rfl

theorem wf_moves : WellFounded (flip (Moves (α := α))) := ⟨fun d => by
  cases d with
  | ready p => exact acc_ready p
  | waiting calls k => exact acc_waiting (fun a b => acc_ready _) _ calls rfl
  | crashed st => exact acc_crashed st⟩

/-- No execution of the system goes on forever. -/
theorem wf_step [Finite ι] : WellFounded (flip (Step (P := P) (ι := ι) (α := α) c)) := by
  have inst : IsWellFounded (Drv α) (flip Moves) := ⟨wf_moves⟩
  let f : Sys P ι α → ι → Ordinal.{0} := fun s i => IsWellFounded.rank (flip Moves) (s.drv i)
  have hw : WellFounded (fun a b : ι → Ordinal.{0} => a < b) := wellFounded_lt
  refine Subrelation.wf (r := fun a b => f a < f b) ?_ (InvImage.wf f hw)
  rintro a b ⟨i, h⟩
  have key : f a i < f b i := IsWellFounded.rank_lt_of_rel (r := flip Moves) (stepBy_moves h)
  refine Pi.lt_def.2 ⟨fun j => ?_, i, key⟩
  by_cases hj : j = i
  · subst hj
    exact key.le
  · simp only [f, stepBy_other hj h]
    exact le_rfl

/-! ### Building executions -/

theorem seq_exec_ok {p : Prog α} : ∀ {kcs kcs' : Pair2 P} {a : α},
    p.exec (c false) (c true) kcs = .ok (a, kcs') → ∀ {β : Type} (f : α → Prog β) (i : ι) (s : Sys P ι β),
    s.srv = runningPair kcs → s.drv i = .ready (p >>= f) →
    ∃ s', ReflTransGen (StepBy c i) s s' ∧ s'.srv = runningPair kcs' ∧ s'.drv i = .ready (f a) := by
  induction p with
  | ret a =>
    intro kcs kcs' a' h β f i s hs hd
    cases h
    exact ⟨s, .refl, hs, hd⟩
  | panic p => intro kcs kcs' a' h; cases h
  | ask r0 r1 k ih =>
    intro kcs kcs' a h β f i s hs hd
    rw [Prog.exec] at h
    obtain ⟨_, p0, h⟩ := bind_eq_ok.1 h
    obtain ⟨⟨k0, a0⟩, l0, h⟩ := bind_eq_ok.1 h
    obtain ⟨_, p1, h⟩ := bind_eq_ok.1 h
    obtain ⟨⟨k1, a1⟩, l1, h⟩ := bind_eq_ok.1 h
    have n0 : (Server.running kcs.1).handle (c false) r0 = (.running k0, .ok a0) := by
      rw [handle_running_eq, p0, l0]
    have n1 : (Server.running kcs.2).handle (c true) r1 = (.running k1, .ok a1) := by
      rw [handle_running_eq, p1, l1]
    let K : Resp → Resp → Prog β := fun a b => (k a b).bind f
    have q1 := StepBy.send (c := c) s r0 r1 K hd
    set s1 := s.drive i (.waiting (fun b => .sent (if b then r1 else r0)) K) with e1
    have q2 := StepBy.serve (c := c) s1 false (fun b => .sent (if b then r1 else r0)) K r0 (drive_drv ..) rfl
    have hs1 : s1.srv = runningPair kcs := hs
    rw [hs1, show runningPair kcs false = .running kcs.1 from rfl, n0] at q2
    set s2 := (s1.handle c false r0).drive i (.waiting (Function.update (fun b => .sent (if b then r1 else r0)) false
      (Call.of (.ok a0))) K) with e2
    have q3 := StepBy.serve (c := c) s2 true _ K r1 (drive_drv ..) (by simp)
    have hs2 : s2.srv true = .running kcs.2 := by
      rw [e2, drive_srv]
      have := handle_srv_not (c := c) s1 false r0
      rw [Bool.not_false, hs1] at this
      exact this
    rw [hs2, n1] at q3
    set s3 := (s2.handle c true r1).drive i (.waiting (Function.update (Function.update
      (fun b => .sent (if b then r1 else r0)) false (Call.of (.ok a0))) true (Call.of (.ok a1))) K) with e3
    have q4 := StepBy.receive (c := c) s3 _ K a0 a1 (drive_drv ..) (by simp [Call.of]) (by simp [Call.of])
    have hs4 : (s3.drive i (.ready (K a0 a1))).srv = runningPair (k0, k1) := by
      rw [drive_srv]
      funext b
      cases b
      · show s3.srv false = _
        rw [e3, drive_srv]
        have := handle_srv_not (c := c) s2 true r1
        rw [Bool.not_true] at this
        rw [this, e2, drive_srv, handle_srv, hs1, show runningPair kcs false = .running kcs.1 from rfl, n0]
        rfl
      · rw [e3, drive_srv, handle_srv, hs2, n1]
        rfl
    obtain ⟨s', g1, g2, g3⟩ := ih a0 a1 h f i _ hs4 (drive_drv ..)
    exact ⟨s', .head q1 (.head q2 (.head q3 (.head q4 g1))), g2, g3⟩

end Mastic
