import Verif.Model.Sigsys
/-!
# The registers of an interrupted program, in the SIGSYS handler

Models how worker/src/linux/lockdown.rs:194-290 reads the call from the context the kernel gives to
the handler, and what it writes back to it, on x86_64. (The registers of i686 are in
Model/Asm.lean; the calls themselves are modelled with the numbers of x86_64.)
-/
namespace Iris

/-- `uc_mcontext.gregs` of libc's `ucontext_t` on x86_64 Linux. -/
abbrev GRegs := Fin 23 → BitVec 64

/-- The indices libc gives to the registers (sys/ucontext.h), those the code uses. -/
def REG_R8 : Fin 23 := 0
def REG_R9 : Fin 23 := 1
def REG_R10 : Fin 23 := 2
def REG_RDI : Fin 23 := 8
def REG_RSI : Fin 23 := 9
def REG_RDX : Fin 23 := 12
def REG_RAX : Fin 23 := 13
def REG_RIP : Fin 23 := 16

/-- worker/src/linux/arch/x86_64/seccomp.rs:41-49: `SYSCALL_REGISTER_NR`, `SYSCALL_REGISTER_A0`
and so on. -/
def REGISTER_NR : Fin 23 := REG_RAX
def REGISTER_A0 : Fin 23 := REG_RDI
def REGISTER_A1 : Fin 23 := REG_RSI
def REGISTER_A2 : Fin 23 := REG_RDX
def REGISTER_A3 : Fin 23 := REG_R10
def REGISTER_A4 : Fin 23 := REG_R8
def REGISTER_A5 : Fin 23 := REG_R9
def REGISTER_IP : Fin 23 := REG_RIP
def REGISTER_RET : Fin 23 := REG_RAX

/-- worker/src/linux/lockdown.rs:194-196 `read_isize_from_ptr`. -/
def readIsize (g : GRegs) (register : Fin 23) : BitVec 64 := g register

/-- worker/src/linux/lockdown.rs:217-230 and 279: the call, as read from the context. -/
def contextCall (g : GRegs) : Regs :=
  ⟨readIsize g REGISTER_NR,
   ⟨readIsize g REGISTER_A0, readIsize g REGISTER_A1, readIsize g REGISTER_A2,
    readIsize g REGISTER_A3, readIsize g REGISTER_A4, readIsize g REGISTER_A5⟩,
   readIsize g REGISTER_IP⟩

/-- worker/src/linux/lockdown.rs:283-286: the result is written to the context. On x86_64 the
conversion of an `isize` to the `i64` of a register never fails. -/
def writeResult (g : GRegs) (code : BitVec 64) : GRegs :=
  fun i => if i = REGISTER_RET then code else g i

/-- How a signal handler ends. -/
inductive HandlerEnd
  /-- it returns: the program goes on with the registers of the context -/
  | returns (g : GRegs)
  | panics
  | faults

/-- worker/src/linux/lockdown.rs:198-290 `sigsys_handler`: what it did for the program (`none`: it
did nothing), and how it ended. `flag` is the reentrancy flag of the thread. -/
def sigsysHandler (abi : Abi) (audit : Bool) (replace : Bytes → Str) (mem : Memory) (t : FdTable)
    (flag : Bool) (signalNo siCode : Nat) (g : GRegs) (io : WorkerIo) : Option Handled × HandlerEnd :=
  if signalNo ≠ SIGSYS then (none, .returns g)
  else if siCode ≠ SYS_SECCOMP then (none, .returns g)
  else if flag then (none, .panics)
  else
    let h := handleTrap abi audit replace mem t (contextCall g) io
    (some h, match h.ret with
      | .code v => .returns (writeResult g v)
      | .panic => .panics
      | .fault => .faults)

end Iris
