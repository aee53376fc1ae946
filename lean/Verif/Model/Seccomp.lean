import Verif.Model.Bpf
/-!
# The system call filter the broker builds

Models broker/src/linux/seccomp.rs. libseccomp is a dependency which is not in /repo; what
the code relies on is its documented behaviour:
* a filter is a default action and a list of rules; a rule names a system call and gives
  conditions on its arguments which must all hold;
* a system call for which some rule's conditions all hold gets that rule's action (all
  rules here have the action Allow), any other gets the default action (here Trap);
* rules apply to the system call of that name on every registered architecture (for the
  socket calls of 32-bit x86, also when made through `socketcall`);
* a call made through another architecture kills the process;
* adding a rule which is already there has no effect.
-/
namespace Iris.Seccomp

/-- broker/src/linux/seccomp.rs:8-93 `SYSCALLS_ALLOWED_BY_DEFAULT`. -/
def allowedByDefault : List String :=
  ["read", "write", "readv", "writev", "recvmsg", "sendmsg", "tee", "fstat", "fstat64",
   "newfstatat", "lseek", "_llseek", "select", "_newselect", "accept", "accept4", "ftruncate",
   "close", "memfd_create", "sigaltstack", "munmap", "nanosleep", "exit_group",
   "restart_syscall", "rt_sigreturn", "rt_sigprocmask", "rt_sigaction", "getpid", "gettid",
   "alarm", "arch_prctl", "brk", "cacheflush", "close_range", "getresuid", "getresgid",
   "getresuid32", "getresgid32", "getrandom", "getuid", "getuid32", "readdir", "timer_create",
   "timer_delete", "timer_getoverrun", "timer_gettime", "timer_settime", "timerfd_create",
   "timerfd_gettime", "timerfd_settime", "times", "sched_yield", "time", "uname", "fsync",
   "fdatasync", "shutdown", "nice", "pause", "clock_nanosleep", "clock_gettime",
   "clock_gettime64", "clock_getres", "poll", "pipe", "mremap", "msync", "mincore", "madvise",
   "dup", "dup2", "dup3", "fcntl", "getitimer", "setitimer", "sendfile", "listen",
   "getsockname", "getpeername", "socketpair", "getsockopt", "futex", "exit", "exit_group"]

/-- The architectures registered at lines 117-119. -/
inductive Arch
  | x86
  | x86_64
  | x32
deriving DecidableEq, Repr

/-- The six arguments of a system call. -/
abbrev Args := Fin 6 → BitVec 64

/-- `scmp_cmp!($argN & mask == value)`; `scmp_cmp!($argN == value)` has no mask bit cleared. -/
structure Cond where
  arg : Fin 6
  mask : BitVec 64
  value : BitVec 64
deriving DecidableEq, Repr

def Cond.holds (c : Cond) (args : Args) : Bool := args c.arg &&& c.mask == c.value

/-- A rule with the action Allow. -/
structure Rule where
  name : String
  conds : List Cond
deriving DecidableEq, Repr

def Rule.applies (r : Rule) (name : String) (args : Args) : Bool :=
  r.name == name && r.conds.all (·.holds args)

/-- What a filter decides. -/
inductive Decision
  | allow
  | trap
deriving DecidableEq, Repr

/-- libseccomp's rule semantics, for the rules of a filter whose default action is Trap. -/
def decision (rules : List Rule) (name : String) (args : Args) : Decision :=
  if rules.any (·.applies name args) then .allow else .trap

/-- What libseccomp and the system do when a filter is built. -/
structure Lib where
  /-- `ScmpFilterContext::new_filter` succeeds -/
  newFilter : Bool
  /-- `add_arch` succeeds -/
  addArch : Arch → Bool
  /-- `ScmpSyscall::from_name` knows the system call -/
  fromName : String → Bool
  /-- `add_rule`, `add_rule_conditional` succeed -/
  addRule : Rule → Bool
  /-- `tempfile()` succeeds -/
  tempfile : Bool
  /-- `export_bpf`: the program for a list of rules (in the order they were added) -/
  exportBpf : List Rule → Option (List Bpf.Insn)

/-- How building a filter can fail: a `SeccompError`, or a panic (lines 193-199). -/
inductive Failure
  | seccompError
  | panic
deriving DecidableEq, Repr

/-- lines 122-134 and 138-187, one step: a name libseccomp does not know is skipped (and
logged), a rule which cannot be added makes the whole function fail. -/
def addRule (lib : Lib) (r : Rule) (rules : List Rule) : Except Failure (List Rule) :=
  if lib.fromName r.name then
    if lib.addRule r then .ok (rules ++ [r]) else .error .seccompError
  else .ok rules

/-- The same for several rules, in order. -/
def addRules (lib : Lib) : List Rule → List Rule → Except Failure (List Rule)
  | [], rules => .ok rules
  | r :: rs, rules =>
    match addRule lib r rules with
    | .ok rules => addRules lib rs rules
    | .error e => .error e

/-- line 137: the complement of PROT_READ, PROT_WRITE, PROT_SEM, 0x10 and the two PROT_GROWS
flags, in 64 bits. -/
def deniedProtection : BitVec 64 :=
  ~~~(0x1#64 ||| 0x2#64 ||| 0x8#64 ||| 0x10#64 ||| 0x01000000#64 ||| 0x02000000#64)

/-- A mask that keeps all bits: `$argN == value`. -/
def allBits : BitVec 64 := ~~~0#64

/-- lines 138-167: `mmap`, `mmap2` and `mprotect`. -/
def protectionRule (name : String) : Rule := ⟨name, [⟨2, deniedProtection, 0#64⟩]⟩
/-- lines 169-181: `kill` and `tgkill`. -/
def selfRule (pid : BitVec 64) (name : String) : Rule := ⟨name, [⟨0, allBits, pid⟩]⟩
/-- lines 183-187: `ioctl(_, TCGETS)`. -/
def ioctlRule : Rule := ⟨"ioctl", [⟨1, allBits, 21505#64⟩]⟩

/-- The rules in the order of the code. -/
def allRules (pid : BitVec 64) : List Rule :=
  allowedByDefault.map (⟨·, []⟩) ++
  [protectionRule "mmap", protectionRule "mmap2", protectionRule "mprotect",
   selfRule pid "kill", selfRule pid "tgkill", ioctlRule]

/-- broker/src/linux/seccomp.rs:109-187: the rules of the filter, or the first failure.
Failing to set the TSYNC attribute (lines 111-113) is only logged. -/
def buildRules (lib : Lib) (pid : BitVec 64) : Except Failure (List Rule) :=
  if lib.newFilter && lib.addArch .x86 && lib.addArch .x86_64 && lib.addArch .x32 then
    addRules lib (allRules pid) []
  else .error .seccompError

/-- ipc-messages/src/linux/mod.rs:10 `IPC_SECCOMP_CALL_SITE_PLACEHOLDER`. -/
def placeholder : BitVec 64 := 0xCAFECAFEC0DEC0DE#64

/-- libc constants combined at lines 220, 229, 256, the offset of `instruction_pointer` in
`seccomp_data` (lines 223, 241). -/
def LD_W_ABS : BitVec 16 := 0x20#16
def JMP_JEQ_K : BitVec 16 := 0x15#16
def RET_K : BitVec 16 := 0x06#16
def ipOffset : BitVec 32 := 8#32

/-- broker/src/linux/seccomp.rs:213-261: the instructions put in front of the filter in audit
mode, for the address `site` (the broker always uses the placeholder). -/
def prelude (site : BitVec 64) : List Bpf.Insn :=
  [{ code := LD_W_ABS, jf := 0, jt := 0, k := ipOffset },
   { code := JMP_JEQ_K, jf := 3, jt := 0, k := Bpf.lo site },
   { code := LD_W_ABS, jf := 0, jt := 0, k := ipOffset + 4#32 },
   { code := JMP_JEQ_K, jf := 1, jt := 0, k := Bpf.hi site },
   { code := RET_K, jf := 0, jt := 0, k := Bpf.RET_ALLOW }]

/-- broker/src/linux/seccomp.rs:109-268 `compute_seccomp_filter`. The temporary file always
gives back what `export_bpf` wrote (lines 200-203, 264-266). `append_instruction` (270-277) is
`Insn.bytes`. -/
def computeSeccompFilter (lib : Lib) (pid : BitVec 64) (audit : Bool) : Except Failure Bytes :=
  match buildRules lib pid with
  | .error e => .error e
  | .ok rules =>
    if lib.tempfile then
      match lib.exportBpf rules with
      | none => .error .seccompError
      | some p =>
        .ok (Bpf.encode (if audit then prelude placeholder else []) ++ Bpf.encode p)
    else .error .panic

end Iris.Seccomp
