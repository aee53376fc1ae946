import Verif.Model.Context
/-!
# The SIGSYS handler on 32-bit x86

Models worker/src/linux/lockdown.rs:186-290 and 383-419 as compiled for i686, with
worker/src/linux/arch/i686/seccomp.rs:30-38. `isize` has 32 bits here. In the structures shared with
the 64-bit model (`Regs`, `Handled`, `WorkerIo.rerun`) an `isize` is represented by what `as i64` makes
of it, its sign extension.
-/
namespace Iris

/-- `uc_mcontext.gregs` of libc's `ucontext_t` on 32-bit x86 Linux. -/
abbrev GRegs32 := Fin 19 → BitVec 32

/-- The indices libc gives to the registers (sys/ucontext.h), those the code uses. -/
def REG_EDI : Fin 19 := 4
def REG_ESI : Fin 19 := 5
def REG_EBP : Fin 19 := 6
def REG_EBX : Fin 19 := 8
def REG_EDX : Fin 19 := 9
def REG_ECX : Fin 19 := 10
def REG_EAX : Fin 19 := 11
def REG_EIP : Fin 19 := 14

/-- worker/src/linux/arch/i686/seccomp.rs:30-37: `SYSCALL_REGISTER_NR`, `SYSCALL_REGISTER_A0` and so on. -/
def REGISTER32_NR : Fin 19 := REG_EAX
def REGISTER32_A0 : Fin 19 := REG_EBX
def REGISTER32_A1 : Fin 19 := REG_ECX
def REGISTER32_A2 : Fin 19 := REG_EDX
def REGISTER32_A3 : Fin 19 := REG_ESI
def REGISTER32_A4 : Fin 19 := REG_EDI
def REGISTER32_A5 : Fin 19 := REG_EBP
def REGISTER32_IP : Fin 19 := REG_EIP

/-- worker/src/linux/arch/i686/seccomp.rs:38 `SYSCALL_REGISTER_RET`. -/
def REGISTER32_RET : Fin 19 := REG_EAX

/-- worker/src/linux/lockdown.rs:194-196 `read_isize_from_ptr`. -/
def readIsize32 (g : GRegs32) (register : Fin 19) : BitVec 64 := (g register).signExtend 64

/-- worker/src/linux/lockdown.rs:217-230 and 279: the call, as read from the context. -/
def contextCall32 (g : GRegs32) : Regs :=
  ⟨readIsize32 g REGISTER32_NR,
   ⟨readIsize32 g REGISTER32_A0, readIsize32 g REGISTER32_A1, readIsize32 g REGISTER32_A2,
    readIsize32 g REGISTER32_A3, readIsize32 g REGISTER32_A4, readIsize32 g REGISTER32_A5⟩,
   readIsize32 g REGISTER32_IP⟩

/-- System call numbers of libc for i686. -/
def SYS32_open : BitVec 64 := 5#64
def SYS32_chdir : BitVec 64 := 12#64
def SYS32_access : BitVec 64 := 33#64
def SYS32_stat : BitVec 64 := 106#64
def SYS32_openat : BitVec 64 := 295#64

/-- The memory of a 32-bit program: the C string at an address. -/
abbrev Memory32 := BitVec 32 → Option Bytes

/-- A pointer made of an `isize`. -/
def Memory32.wide (mem : Memory32) : Memory := fun a => mem (a.setWidth 32)

/-- worker/src/linux/lockdown.rs:383-419 `handle_syscall`. The reply is compared with `-ENOSYS` as an `isize`,
that is after the upper half is cut off. -/
def handleSyscall32 (abi : Abi) (audit : Bool) (t : FdTable) (nb : BitVec 64) (args : Args6)
    (ip : BitVec 64) (io : WorkerIo) : Handled :=
  let req := .syscall nb args ip
  let finish (t : FdTable) (response : BitVec 32) : Handled :=
    if audit && response == (negErrno ENOSYS).setWidth 32 then
      ⟨t, some req, .code (io.rerun nb args), some (nb, args)⟩
    else ⟨t, some req, .code (response.signExtend 64), none⟩
  match sendRecv abi t req io with
  | (t, some (.syscallResult _, some fd)) => finish t (BitVec.ofNat 32 fd)
  | (t, some (.syscallResult code, none)) => finish t (code.setWidth 32)
  | (t, _) => ⟨t, some req, .panic, none⟩

/-- worker/src/linux/lockdown.rs:238-282: as `handleTrap`, with the numbers of i686. The functions called are those
of Model/Worker.lean: their codes are cut to 32 bits in the end (descriptors are below 2^31, so line 332 does not
panic). -/
def handleTrap32 (abi : Abi) (audit : Bool) (replace : Bytes → Str) (mem : Memory32) (t : FdTable)
    (r : Regs) (io : WorkerIo) : Handled :=
  let low (v : BitVec 64) : BitVec 32 := v.setWidth 32
  let withPath (ptr : BitVec 64) (k : Str → Handled) : Handled :=
    match readString replace mem.wide ptr with
    | some path => k path
    | none => ⟨t, none, .fault, none⟩
  if r.nr = SYS32_access then withPath r.args.a0 fun path => handleAccess abi t path (low r.args.a1) io
  else if r.nr = SYS32_stat then withPath r.args.a0 fun path => handleByPath abi t path io
  else if r.nr = SYS32_open then
    withPath r.args.a0 fun path => handleOpenat abi t path (low r.args.a1) io
  else if r.nr = SYS32_openat then
    if low r.args.a0 = AT_FDCWD then
      withPath r.args.a1 fun path => handleOpenat abi t path (low r.args.a2) io
    else match mem.wide r.args.a1 with
      | none => ⟨t, none, .fault, none⟩
      | some b =>
        if b.head? = some 47 then
          withPath r.args.a1 fun path => handleOpenat abi t path (low r.args.a2) io
        else handleSyscall32 abi audit t r.nr r.args r.ip io
  else if r.nr = SYS32_chdir then withPath r.args.a0 fun path => handleByPath abi t path io
  else handleSyscall32 abi audit t r.nr r.args r.ip io

/-- worker/src/linux/lockdown.rs:283-286: the result, an `isize`, is written to the context. -/
def writeResult32 (g : GRegs32) (code : BitVec 64) : GRegs32 :=
  fun i => if i = REGISTER32_RET then code.setWidth 32 else g i

/-- How a signal handler ends. -/
inductive HandlerEnd32
  | returns (g : GRegs32)
  | panics
  | faults

/-- worker/src/linux/lockdown.rs:198-290 `sigsys_handler`, as `sigsysHandler`. -/
def sigsysHandler32 (abi : Abi) (audit : Bool) (replace : Bytes → Str) (mem : Memory32) (t : FdTable)
    (flag : Bool) (signalNo siCode : Nat) (g : GRegs32) (io : WorkerIo) : Option Handled × HandlerEnd32 :=
  if signalNo ≠ SIGSYS then (none, .returns g)
  else if siCode ≠ SYS_SECCOMP then (none, .returns g)
  else if flag then (none, .panics)
  else
    let h := handleTrap32 abi audit replace mem t (contextCall32 g) io
    (some h, match h.ret with
      | .code v => .returns (writeResult32 g v)
      | .panic => .panics
      | .fault => .faults)

end Iris
