import Verif.Model.Wire

/-!
# A server that receives bytes (`src/bin/server.rs:339-360`)

`tcp::listen(&server_addr, Bincode::default)`: anybody can connect and send frames.  A frame that cannot be read (or
has bytes left over, which `DefaultOptions` rejects) ends its connection and nothing else.  The header that tarpc puts
in front of the request is left out.
-/

namespace Mastic

variable {P : Prims}

/-- The request in a frame. (`src/bin/server.rs:339-360`) -/
def readFrame (l : List Byte) : Option Req :=
  match (reqCodec .varint).dec l with
  | some (r, []) => some r
  | _ => none

/-- What a frame does to a server. (`src/bin/server.rs:339-360`) -/
def Server.frame (cfg : ServerCfg) (s : Server P) (l : List Byte) : Server P :=
  match readFrame l with
  | some r => (s.handle cfg r).1
  | none => s

/-- Frames one after the other (the lock serialises the handlers of all connections).
(`src/bin/server.rs:339-360`) -/
def Server.frames (cfg : ServerCfg) : Server P → List (List Byte) → Server P
  | s, [] => s
  | s, l :: ls => Server.frames cfg (s.frame cfg l) ls

end Mastic
