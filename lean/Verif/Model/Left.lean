import Verif.Model.Wire

/-!
# The servers after a run over the network
-/

namespace Mastic

/-- The states in which a run over two connections can leave the two servers.  The driver makes the two calls of a
`try_join!` at the same time and panics at the first one that fails; the other server may have handled its call by then, or may
never see it.  Each server goes on waiting for connections. `src/bin/driver.rs:256-258, 333-335`,
`src/bin/server.rs:339-360`; tarpc, external. -/
inductive NetLeft {P : Prims} {α : Type} (n0 n1 : Net) (c0 c1 : ServerCfg) :
    Prog α → Server P × Server P → Server P × Server P → Prop
  | ret (a : α) (s : Server P × Server P) : NetLeft n0 n1 c0 c1 (.ret a) s s
  | panic (p : Panic) (s : Server P × Server P) : NetLeft n0 n1 c0 c1 (.panic p) s s
  | ask (r0 r1 : Req) (k : Resp → Resp → Prog α) (s t : Server P × Server P) (a b : Resp)
      (h0 : (netCall n0 c0 s.1 r0).2 = .ok a) (h1 : (netCall n1 c1 s.2 r1).2 = .ok b)
      (h : NetLeft n0 n1 c0 c1 (k a b) ((netCall n0 c0 s.1 r0).1, (netCall n1 c1 s.2 r1).1) t) :
      NetLeft n0 n1 c0 c1 (.ask r0 r1 k) s t
  | failed (r0 r1 : Req) (k : Resp → Resp → Prog α) (s t : Server P × Server P) (p : Panic)
      (h : (netCall n0 c0 s.1 r0).2 = .error p ∨ (netCall n1 c1 s.2 r1).2 = .error p)
      (h0 : t.1 = s.1 ∨ t.1 = (netCall n0 c0 s.1 r0).1) (h1 : t.2 = s.2 ∨ t.2 = (netCall n1 c1 s.2 r1).1) :
      NetLeft n0 n1 c0 c1 (.ask r0 r1 k) s t

end Mastic
