import Verif.Model.Asm
/-!
# What a C function call and a system call are, on x86_64 and 32-bit x86
-/
namespace Iris.Spec
open Iris.Asm

/-- An address in the `n` bytes from `a` on. -/
def InRange {w : Nat} (a : BitVec w) (n : Nat) (x : BitVec w) : Prop := (x - a).toNat < n

/-- A C function of seven word-sized parameters was just called on x86_64: six are in registers,
the seventh is on the stack above the return address. -/
structure CCall64 (s : St Reg64 64) (nb : BitVec 64) (a : Fin 6 → BitVec 64) : Prop where
  p1 : s.regs .rdi = nb
  p2 : s.regs .rsi = a 0
  p3 : s.regs .rdx = a 1
  p4 : s.regs .rcx = a 2
  p5 : s.regs .r8 = a 3
  p6 : s.regs .r9 = a 4
  p7 : read s.mem (s.regs .rsp + 8#64) = a 5

/-- The registers a C function must preserve on x86_64 (with rsp, see `CReturn`). -/
def preserved64 : List Reg64 := [.rbx, .rbp, .r12, .r13, .r14, .r15]

/-- The same for 32-bit x86: all on the stack. -/
structure CCall32 (s : St Reg32 32) (nb : BitVec 32) (a : Fin 6 → BitVec 32) : Prop where
  p1 : read s.mem (s.regs .esp + 4#32) = nb
  p2 : read s.mem (s.regs .esp + 8#32) = a 0
  p3 : read s.mem (s.regs .esp + 12#32) = a 1
  p4 : read s.mem (s.regs .esp + 16#32) = a 2
  p5 : read s.mem (s.regs .esp + 20#32) = a 3
  p6 : read s.mem (s.regs .esp + 24#32) = a 4
  p7 : read s.mem (s.regs .esp + 28#32) = a 5

def preserved32 : List Reg32 := [.ebx, .ebp, .esi, .edi]

/-- The function called in state `s` has returned in state `s'`: to the return address, with the
stack pointer above it and the given registers as they were. -/
structure CReturn {R : Type} {w : Nat} (sp : R) (preserved : List R) (s s' : St R w) : Prop where
  ip : s'.ip = read s.mem (s.regs sp)
  sp : s'.regs sp = s.regs sp + BitVec.ofNat w (w / 8)
  saved : ∀ r, r ∈ preserved → s'.regs r = s.regs r

/-- A kernel that changes none of the `n` bytes from `a` on. -/
def Leaves {w : Nat} (k : Kernel w) (a : BitVec w) (n : Nat) : Prop :=
  ∀ call m x, InRange a n x → (k call m).mem x = m x

/-- The number and the arguments the Linux kernel sees when an x86_64 program with these registers
executes `syscall`. -/
def kernelNr64 (regs : Reg64 → BitVec 64) : BitVec 64 := regs .rax
def kernelArgs64 (regs : Reg64 → BitVec 64) : Fin 6 → BitVec 64 := fun i =>
  [regs .rdi, regs .rsi, regs .rdx, regs .r10, regs .r8, regs .r9][i]

/-- The same for `int 0x80` on 32-bit x86. -/
def kernelNr32 (regs : Reg32 → BitVec 32) : BitVec 32 := regs .eax
def kernelArgs32 (regs : Reg32 → BitVec 32) : Fin 6 → BitVec 32 := fun i =>
  [regs .ebx, regs .ecx, regs .edx, regs .esi, regs .edi, regs .ebp][i]

end Iris.Spec
