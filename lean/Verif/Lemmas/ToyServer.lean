import Verif.Lemmas.Crawl
import Verif.Lemmas.Toy

/-!
# A toy server holding two reports
-/

namespace Mastic

/-- The first server's shares of two toy clients, holding `10` and `01`. -/
def toyShares : Exec (List ReportShare) := do
  let r ← toyReport 2 [true, false] 1 0
  let r' ← toyReport 2 [false, true] 0 1
  .ok [r.toShares.1, r'.toShares.1]

/-- A toy server holding the given shares. -/
def toyHolding (rs : List ReportShare) : KeyCollection toy :=
  { KeyCollection.new toy 2 0 (some 2) Block.zero with reportShares := rs.map fun r => (true, r) }

theorem toyHolding_reachable (rs : List ReportShare) (bld : Build) :
    Spec.Reachable toy (toyCfg 0 (some 2) bld) 2 (toyHolding rs) :=
  ⟨[.addReportShares rs], by
    simp only [Server.run, Server.start, Server.handle, preLock, locked, srvAdd_eq]; rfl⟩

end Mastic
