import Verif.Model.Seccomp
import Verif.Model.Worker
/-!
# The worker locking itself down

Models worker/src/linux/lockdown.rs:50-184 `lower_final_sandbox_privileges`.
-/
namespace Iris.Seccomp

/-- A 64-bit address as two groups of four bytes, as at lines 132-137. -/
def firstHalf (v : BitVec 64) : Bytes := Bpf.le32 (Bpf.lo v)
def secondHalf (v : BitVec 64) : Bytes := Bpf.le32 (Bpf.hi v)

/-- worker/src/linux/lockdown.rs:140-142 and 143-145: the four bytes at the front of the rest
of the filter are compared to `pattern` and replaced if equal. -/
def replaceFront (pattern actual : Bytes) (l : Bytes) : Bytes :=
  if l.take 4 = pattern then actual ++ l.drop 4 else l

/-- worker/src/linux/lockdown.rs:138-147: the loop. The list is the filter from `start` on;
what is before `start` is never looked at again. The loop goes on while there are more than
four bytes left. `fuel` bounds the recursion; `patch` gives it the length. -/
def patchLoop (site : BitVec 64) : Nat → Bytes → Bytes
  | 0, l => l
  | fuel + 1, l =>
    if 4 < l.length then
      match replaceFront (secondHalf placeholder) (secondHalf site)
          (replaceFront (firstHalf placeholder) (firstHalf site) l) with
      | [] => []
      | b :: l => b :: patchLoop site fuel l
    else l

def patch (site : BitVec 64) (filter : Bytes) : Bytes := patchLoop site filter.length filter

/-- The disposition of a signal. -/
inductive SigDisp
  | default
  | ignore
  | handler (addr : Nat)
deriving DecidableEq, Repr

/-- What the system does during the lockdown. -/
structure LockOs where
  /-- a failure of `sendmsg` -/
  sendError : Option Nat
  /-- what is received from the broker -/
  incoming : Incoming
  canInstall : Nat
  /-- the disposition of SIGSYS before; `sigaction` succeeds or not -/
  oldSigsys : SigDisp
  sigactionOk : Bool
  /-- `seccomp(SECCOMP_SET_MODE_FILTER, SECCOMP_FILTER_FLAG_TSYNC, p)` succeeds for a program -/
  seccompOk : List Bpf.Insn → Bool
  /-- `prctl(PR_SET_SECCOMP, SECCOMP_MODE_FILTER, p)` succeeds for a program -/
  prctlOk : List Bpf.Insn → Bool
  /-- the address of `rerun_syscall` plus `SYSCALL_ASM_OFFSET` (lines 127-128) -/
  callSite : BitVec 64

/-- The threads a filter was installed on. -/
inductive Scope
  | allThreads
  | callingThread
deriving DecidableEq, Repr

/-- What a process has done to itself. -/
structure Locked where
  table : FdTable
  /-- AUDIT_ONLY_MODE -/
  audit : Bool
  /-- the handler of SIGSYS is `sigsys_handler` -/
  handler : Bool
  /-- the filter the kernel applies -/
  filter : Option (List Bpf.Insn × Scope)

/-- worker/src/linux/lockdown.rs:150-176: the kernel is told the number of whole instructions,
as a `u16`, and reads them. `none` is the panic of line 171. -/
def install (os : LockOs) (filter : Bytes) : Option (List Bpf.Insn × Scope) :=
  match Bpf.decode (BitVec.ofNat 16 (filter.length / 8)).toNat filter with
  | none => none
  | some p =>
    if os.seccompOk p then some (p, .allThreads)
    else if os.prctlOk p then some (p, .callingThread)
    else none

/-- worker/src/linux/lockdown.rs:76-183: what is done with the broker's answer. `none` is a
panic. -/
def applyAnswer (os : LockOs) (t : FdTable) (policyAudit : Bool) (filter : Bytes) :
    Option Locked :=
  if filter = [] then some ⟨t, policyAudit, false, none⟩
  else if os.sigactionOk then
    match os.oldSigsys with
    | .handler _ => none
    | _ =>
      (install os (if policyAudit then patch os.callSite filter else filter)).map
        fun f => ⟨t, policyAudit, true, some f⟩
  else none

/-- worker/src/linux/lockdown.rs:50-184 `lower_final_sandbox_privileges`. AUDIT_ONLY_MODE is
false before. `none` is a panic. -/
def lowerFinal (abi : Abi) (t : FdTable) (os : LockOs) : Option Locked :=
  match channelSend abi t (sendRequest .initialization) none os.sendError with
  | .error _ => none
  | .ok _ =>
    match channelRecv abi decResponse IPC_MESSAGE_MAX_SIZE os.canInstall t os.incoming with
    | (t, .ok (some (.initialization policy filter, none))) =>
      applyAnswer os t policy.auditOnly filter
    | _ => none

end Iris.Seccomp
