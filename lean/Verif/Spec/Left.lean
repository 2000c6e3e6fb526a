import Verif.Model.Left
import Verif.Spec.Typed

/-!
# Specification: servers that are as good as new
-/

namespace Mastic.Spec

/-- Every run on these servers - by any driver, with any configuration and number of clients, over any connections - has exactly
the outcome it has on servers that have just been started. -/
def LikeNew {P : Prims} (c0 c1 : ServerCfg) (s : Server P × Server P) : Prop :=
  ∀ (bld : Build) (cfg : Config) (mode : DriverMode) (draw : MainDraw) (n b0 b1 : Nat) (m0 m1 : Net),
    cfg.histBuckets < 2 ^ 64 →
    (mainP P bld cfg mode draw n).netRun m0 m1 c0 c1 s
      = (mainP P bld cfg mode draw n).netRun m0 m1 c0 c1 (Server.start P c0 b0, Server.start P c1 b1)

/-- The states of the servers after any number of runs over connections, each of which ends on values. -/
inductive AfterRuns {P : Prims} (c0 c1 : ServerCfg) : Server P × Server P → Prop
  | start (b0 b1 : Nat) : AfterRuns c0 c1 (Server.start P c0 b0, Server.start P c1 b1)
  | run (bld : Build) (cfg : Config) (mode : DriverMode) (draw : MainDraw) (n : Nat) (kcs : Pair2 P) (out : MainOut P)
      (n0 n1 : Net) (t : Server P × Server P) (h : AfterRuns c0 c1 (.running kcs.1, .running kcs.2))
      (hout : driverMain c0 c1 bld cfg mode draw n kcs = .ok out)
      (htyped : runTyped c0 c1 (mainP P bld cfg mode draw n) (.running kcs.1, .running kcs.2) = true)
      (h0 : n0.limit < 2 ^ 64) (h1 : n1.limit < 2 ^ 64)
      (hleft : NetLeft n0 n1 c0 c1 (mainP P bld cfg mode draw n) (.running kcs.1, .running kcs.2) t) : AfterRuns c0 c1 t

end Mastic.Spec
