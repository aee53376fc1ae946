import Verif.Spec.Worker
import Verif.Spec.Asm
/-!
# What a program sees of a system call on x86_64

The state of a program in user mode, what the `syscall` instruction does to it, and the frame
through which the kernel shows it to a signal handler.
-/
namespace Iris.Spec
open Iris.Asm

/-- A program: its registers, the address of its next instruction, its flags. -/
structure UserState where
  reg : Reg64 → BitVec 64
  rip : BitVec 64
  flags : BitVec 64

/-- After `syscall` (two bytes long) with result `v`: the program is past the instruction, `rax` has
the result, `rcx` and `r11` what the processor puts there, the flags and all other registers are as
before. -/
structure AfterSyscall (before after : UserState) (v : BitVec 64) : Prop where
  rip : after.rip = before.rip + 2#64
  flags : after.flags = before.flags
  rax : after.reg .rax = v
  rcx : after.reg .rcx = before.rip + 2#64
  r11 : after.reg .r11 = before.flags
  others : ∀ r, r ≠ .rax → r ≠ .rcx → r ≠ .r11 → after.reg r = before.reg r

/-- The program has executed `syscall`; the filter does not let the call run and raises a signal.
The kernel does not change `rax` (it has the call's number). -/
def UserState.trapped (s : UserState) : UserState :=
  { s with
    reg := fun r => if r = .rcx then s.rip + 2#64 else if r = .r11 then s.flags else s.reg r
    rip := s.rip + 2#64 }

/-- The frame of a signal (the kernel's `struct sigcontext`, in order): r8 to r15, rdi, rsi, rbp, rbx,
rdx, rax, rcx, rsp, rip, flags, and five more words. -/
def UserState.frame (s : UserState) (more : Fin 5 → BitVec 64) : Fin 23 → BitVec 64 := fun i =>
  [s.reg .r8, s.reg .r9, s.reg .r10, s.reg .r11, s.reg .r12, s.reg .r13, s.reg .r14, s.reg .r15,
   s.reg .rdi, s.reg .rsi, s.reg .rbp, s.reg .rbx, s.reg .rdx, s.reg .rax, s.reg .rcx, s.reg .rsp,
   s.rip, s.flags, more 0, more 1, more 2, more 3, more 4][i]

/-- The state of the program after the handler returns with a frame. -/
def resumed (g : Fin 23 → BitVec 64) : UserState where
  reg
    | .r8 => g 0 | .r9 => g 1 | .r10 => g 2 | .r11 => g 3 | .r12 => g 4 | .r13 => g 5
    | .r14 => g 6 | .r15 => g 7 | .rdi => g 8 | .rsi => g 9 | .rbp => g 10 | .rbx => g 11
    | .rdx => g 12 | .rax => g 13 | .rcx => g 14 | .rsp => g 15
  rip := g 16
  flags := g 17

/-- The call the program makes: what the kernel would have run. -/
def UserState.call (s : UserState) : Regs :=
  ⟨kernelNr64 s.reg, ⟨kernelArgs64 s.reg 0, kernelArgs64 s.reg 1, kernelArgs64 s.reg 2,
    kernelArgs64 s.reg 3, kernelArgs64 s.reg 4, kernelArgs64 s.reg 5⟩, s.rip + 2#64⟩

/-- What a worker receives if a broker serves a handler. -/
def received [Target] (abi : Abi) (p : Policy) (b : Broker) (os : OsChoice)
    (handler : Incoming → Handled) : Incoming :=
  match (handler .eof).sent.bind sendRequest with
  | none => .eof
  | some data => brokerReply b (b.step abi p (.datagram ⟨data, []⟩) os)

end Iris.Spec
