import Verif.Model.Context32
import Verif.Spec.Context
/-!
# What a program sees of a system call on 32-bit x86
-/
namespace Iris.Spec
open Iris.Asm

/-- A program: its registers, the address of its next instruction, its flags. -/
structure UserState32 where
  reg : Reg32 → BitVec 32
  eip : BitVec 32
  flags : BitVec 32

/-- After `int 0x80` (two bytes long) with result `v`: the program is past the instruction, `eax` has the result,
everything else is as before. -/
structure AfterInt80 (before after : UserState32) (v : BitVec 32) : Prop where
  eip : after.eip = before.eip + 2#32
  flags : after.flags = before.flags
  eax : after.reg .eax = v
  others : ∀ r, r ≠ .eax → after.reg r = before.reg r

/-- The program has executed `int 0x80`; the filter does not let the call run and raises a signal. The kernel does
not change `eax` (it has the call's number). -/
def UserState32.trapped (s : UserState32) : UserState32 := { s with eip := s.eip + 2#32 }

/-- The frame of a signal (the kernel's `struct sigcontext_32`, in order): four segments, edi, esi, ebp, esp, ebx, edx,
ecx, eax, two words about the fault, eip, a segment, the flags, the stack pointer again and its segment. -/
def UserState32.frame (s : UserState32) (more : Fin 8 → BitVec 32) : Fin 19 → BitVec 32 := fun i =>
  [more 0, more 1, more 2, more 3, s.reg .edi, s.reg .esi, s.reg .ebp, s.reg .esp, s.reg .ebx, s.reg .edx,
   s.reg .ecx, s.reg .eax, more 4, more 5, s.eip, more 6, s.flags, s.reg .esp, more 7][i]

/-- The state of the program after the handler returns with a frame. -/
def resumed32 (g : Fin 19 → BitVec 32) : UserState32 where
  reg
    | .edi => g 4 | .esi => g 5 | .ebp => g 6 | .esp => g 7 | .ebx => g 8 | .edx => g 9 | .ecx => g 10 | .eax => g 11
  eip := g 14
  flags := g 16

/-- The program calls the kernel with this number and these arguments by path. -/
inductive PathCall32 (mem : Memory32) (s : UserState32) : Kind → Str → Prop
  | open (path : Str) (h1 : kernelNr32 s.reg = 5) (h2 : mem (kernelArgs32 s.reg 0) = some (utf8 path))
    (h3 : '\x00' ∉ path) : PathCall32 mem s (.open (kernelArgs32 s.reg 1)) path
  | openat (path : Str) (h1 : kernelNr32 s.reg = 295) (h2 : mem (kernelArgs32 s.reg 1) = some (utf8 path))
    (h3 : '\x00' ∉ path) (h4 : kernelArgs32 s.reg 0 = -100#32 ∨ path.head? = some '/') :
    PathCall32 mem s (.open (kernelArgs32 s.reg 2)) path
  | access (path : Str) (h1 : kernelNr32 s.reg = 33) (h2 : mem (kernelArgs32 s.reg 0) = some (utf8 path))
    (h3 : '\x00' ∉ path) : PathCall32 mem s (.access (kernelArgs32 s.reg 1)) path
  | stat (path : Str) (h1 : kernelNr32 s.reg = 106) (h2 : mem (kernelArgs32 s.reg 0) = some (utf8 path))
    (h3 : '\x00' ∉ path) : PathCall32 mem s .stat path
  | chdir (path : Str) (h1 : kernelNr32 s.reg = 12) (h2 : mem (kernelArgs32 s.reg 0) = some (utf8 path))
    (h3 : '\x00' ∉ path) : PathCall32 mem s .chdir path

/-- The call is none of those the worker treats by path. -/
def OtherCall32 (mem : Memory32) (s : UserState32) : Prop :=
  (∀ n ∈ [5#32, 12#32, 33#32, 106#32, 295#32], kernelNr32 s.reg ≠ n) ∨
  (kernelNr32 s.reg = 295 ∧ kernelArgs32 s.reg 0 ≠ -100#32 ∧
    ∃ bytes, mem (kernelArgs32 s.reg 1) = some bytes ∧ bytes.head? ≠ some 47)

/-- A 32-bit program with a broker: what the handler does, how it ends, and the broker afterwards. -/
def served32 [Target] (abi : Abi) (p : Policy) (b : Broker) (os : OsChoice) (audit : Bool) (replace : Bytes → Str)
    (mem : Memory32) (t : FdTable) (s : UserState32) (more : Fin 8 → BitVec 32) (io : WorkerIo) :
    (Option Handled × HandlerEnd32) × Broker :=
  let run (inc : Incoming) := sigsysHandler32 abi audit replace mem t false 31 1 (s.trapped.frame more)
    { io with incoming := inc }
  let handler (inc : Incoming) : Handled := ((run inc).1).getD ⟨t, none, .panic, none⟩
  (run (received abi p b os handler), (withBroker abi p b os handler).2)

/-- A word as a number with sign, in 64 bits. -/
def signed (v : BitVec 32) : BitVec 64 := BitVec.ofInt 64 v.toInt

end Iris.Spec
