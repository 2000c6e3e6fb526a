import Verif.Model.System

/-!
# Specification: server processes started with different settings
-/

namespace Mastic.Spec

/-- Started with the same server number.  The number of bits, the kind of build and the order of the hash map may
differ. -/
def SameNumber (c c' : ServerCfg) : Prop := c.serverId = c'.serverId

/-- The larger of two numbers of bits, if there is one. -/
def moreBits : Option Nat → Option Nat → Option Nat
  | some a, some b => some (max a b)
  | some a, none => some a
  | none, b => b

end Mastic.Spec
