import Verif.Model.ProcessMem
/-!
# Where a configuration is kept, and what is left of memory
-/
namespace Iris.Spec

/-- A C string at an address: bytes other than NUL, and a NUL. -/
def CStringAt (m : LMem) (a : Nat) (s : Bytes) : Prop := m.blocks a = some (.bytes (s ++ [0])) ∧ (0 : UInt8) ∉ s

/-- The strings of a configuration are in memory, each at its address. -/
structure Stored (m : LMem) (c : ProcessConfig) (at' : ConfigAt) : Prop where
  exe : CStringAt m at'.exe c.exe
  argvLength : at'.argv.length = c.argv.length
  argv : ∀ x ∈ at'.argv.zip c.argv, CStringAt m x.1 x.2
  envpLength : at'.envp.length = c.envp.length
  envp : ∀ x ∈ at'.envp.zip c.envp, CStringAt m x.1 x.2

/-- The allocator gives addresses that are not in use. -/
def FreshMem (m : LMem) : Prop := ∀ a, m.next ≤ a → m.blocks a = none

end Iris.Spec
