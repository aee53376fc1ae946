import Verif.Model.WinHook
import Verif.Spec.Asm
/-!
# What redirecting functions is supposed to mean

In terms of what a program that calls through the tables of a module executes.
-/
namespace Iris.Spec
open Asm

/-- A call of address `a` arrives at `hook`, as if it had been called directly: with the same registers, the
same stack pointer and the same memory, but for the 8 bytes below the stack pointer. `m` is the memory the 14
bytes at `a` are taken from; the stack must not be there. -/
def Reaches (m : Mem 64) (a hook : BitVec 64) : Prop :=
  ∀ s : St Reg64 64, s.ip = a → (∀ x, InRange a 14 x → s.mem x = m x) →
    (∀ x, InRange (s.regs .rsp - 8) 8 x → ¬ InRange a 14 x) →
    ∃ n s', execs exec64 n s = some s' ∧ s'.ip = hook ∧ s'.regs = s.regs ∧
      ∀ x, ¬ InRange (s.regs .rsp - 8) 8 x → s'.mem x = s.mem x

/-- A system that does not report as free what is in use, and gives out memory in units of a reasonable size. -/
structure HonestOs (os : HookOs) (inUse : List (BitVec 64)) : Prop where
  unit : 14 ≤ os.granularity ∧ os.granularity ∣ 2 ^ 64
  fresh : ∀ done a size, os.query done a = some (size, true) → a ∉ done ∧ a ∉ inUse

/-- The address a module imports at a place: descriptor `i`, function `k`. -/
def importSlot (m : WinModule) (i k : Nat) : Option (BitVec 64) :=
  m.imports.bind fun l => l[i]?.bind fun d => d.thunks[k]?

/-- The place is in use: the end of neither table comes before it. -/
def importLive (m : WinModule) (i k : Nat) : Prop :=
  (∀ l d, m.imports = some l → ∀ j, j ≤ i → l[j]? = some d → d.firstThunk ≠ 0 ∧ d.name ≠ 0) ∧
  (∀ j, j ≤ k → importSlot m i j ≠ some 0)

/-- The functions hooked, each with what replaces it: the addresses a lookup in the exports of module `dll`
gives, before anything is hooked. -/
def hookPairs (mods : List WinModule) (dll : Nat) (l : List (Nat × BitVec 64)) : List (BitVec 64 × BitVec 64) :=
  l.filterMap fun e => mods[dll]?.bind fun m => m.exports[e.1]?.map fun rva => (m.base + rva.zeroExtend 64, e.2)

/-- Where calls of an address go, given what replaces what. -/
def redirect (pairs : List (BitVec 64 × BitVec 64)) (a : BitVec 64) : BitVec 64 :=
  match pairs.find? (·.1 = a) with
  | some p => p.2
  | none => a

/-- The module's table of exports leads to the replacements, and is otherwise unchanged. -/
def ExportsRedirected (mem : Mem 64) (pairs : List (BitVec 64 × BitVec 64)) (m m' : WinModule) : Prop :=
  m'.base = m.base ∧ m'.exports.length = m.exports.length ∧
  ∀ (i : Nat) (rva rva' : BitVec 32), m.exports[i]? = some rva → m'.exports[i]? = some rva' →
    (∀ p, p ∈ pairs → p.1 = m.base + rva.zeroExtend 64 → Reaches mem (m.base + rva'.zeroExtend 64) p.2) ∧
    ((∀ p, p ∈ pairs → p.1 ≠ m.base + rva.zeroExtend 64) → rva' = rva)

/-- The same for the imports: in each place in use there is now the replacement. -/
def ImportsRedirected (pairs : List (BitVec 64 × BitVec 64)) (m m' : WinModule) : Prop :=
  ∀ i k a, importSlot m i k = some a →
    (importLive m i k → importSlot m' i k = some (redirect pairs a)) ∧
    (¬ importLive m i k → importSlot m' i k = some a)

end Iris.Spec
