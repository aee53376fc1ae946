import Verif.Model.Process
/-!
# The processes a Linux broker has created

Models what broker/src/linux/process.rs:148-178 (`try_clone`), linux-entrypoint/src/entry.rs:241-252 and
linux-entrypoint/src/error.rs:38 (how a new process ends) mean for the children of the broker, and the part of Linux
they rest on. No other part of the code creates, waits for or ends a process: there is no `waitpid`, no `kill`
and no `Drop` for `Worker` or `OSSandboxedProcess` (broker/src/worker.rs:12-15, broker/src/linux/process.rs:17-24).
-/
namespace Iris

/-- A child of the broker, as the kernel sees it. One that has ended stays until its parent has waited for it. -/
structure Kid where
  pid : Nat
  /-- the signal its parent gets when it ends; 0 for none -/
  exitSignal : BitVec 32
  /-- it runs a program, not the entry point -/
  program : Bool
  /-- it has ended, with this status -/
  ended : Option Nat
deriving DecidableEq, Repr

/-- The children of the broker, and whether it ignores SIGCHLD (`SIG_IGN` or `SA_NOCLDWAIT`). -/
structure Kids where
  list : List Kid
  ignores : Bool
deriving DecidableEq, Repr

/-- Kernel: SIGCHLD. -/
def SIGCHLD : BitVec 32 := 17#32

/-- Kernel, kernel/fork.c: `clone` makes a child whose exit signal is the low byte of the flags (CSIGNAL). -/
def Kids.clone (k : Kids) (flags : BitVec 32) (pid : Nat) : Kids :=
  { k with list := ⟨pid, flags &&& 0xff#32, false, none⟩ :: k.list }

/-- Kernel, fs/exec.c `begin_new_exec` and `de_thread`: the exit signal of a process that executes a program is
SIGCHLD. -/
def Kids.exec (k : Kids) (pid : Nat) : Kids :=
  { k with list := k.list.map fun x =>
      if x.pid = pid ∧ x.ended = none then { x with exitSignal := SIGCHLD, program := true } else x }

/-- Kernel, kernel/exit.c `exit_notify` and kernel/signal.c `do_notify_parent`: a child that ends goes away at once if its exit
signal is SIGCHLD and the parent ignores that; else it stays until it is waited for. -/
def Kids.exit (k : Kids) (pid status : Nat) : Kids :=
  { k with list := k.list.filterMap fun x =>
      if x.pid = pid ∧ x.ended = none then
        if x.exitSignal = SIGCHLD ∧ k.ignores = true then none else some { x with ended := some status }
      else some x }

/-- Kernel, kernel/exit.c `eligible_pid` and `eligible_child`: `waitpid` with the flag __WALL (0x40000000) considers all
children; else, with __WCLONE (0x80000000), those whose exit signal is not SIGCHLD, and without it the others. -/
def Kid.eligible (x : Kid) (which : Option Nat) (flags : BitVec 32) : Bool :=
  (which = none ∨ which = some x.pid) ∧
  (flags &&& 0x40000000#32 ≠ 0#32 ∨ ((x.exitSignal ≠ SIGCHLD) ↔ (flags &&& 0x80000000#32 ≠ 0#32)))

/-- What `waitpid` says: a child that has ended and its status, no child has ended yet (0 with WNOHANG; without it the
call goes on waiting), or an errno. -/
inductive Waited
  | child (pid status : Nat)
  | notYet
  | failed (errno : Nat)
deriving DecidableEq, Repr

/-- The first child considered which has ended, if any. -/
def Kids.ready (k : Kids) (which : Option Nat) (flags : BitVec 32) : Option Kid :=
  k.list.find? fun x => x.eligible which flags && x.ended.isSome

/-- Kernel, kernel/exit.c `do_wait`: `waitpid` for one child or (-1) for any. ECHILD (10) if there is none to consider. -/
def Kids.wait (k : Kids) (which : Option Nat) (flags : BitVec 32) : Waited × Kids :=
  match k.ready which flags with
  | some x => (.child x.pid (x.ended.getD 0), { k with list := k.list.filter fun y => y.pid ≠ x.pid })
  | none => (if k.list.any fun x => x.eligible which flags then .notYet else .failed 10, k)

/-- broker/src/linux/process.rs:104-106: the flags of the attempt at `clone` that succeeds: CLONE_NEWUSER | CLONE_NEWPID,
CLONE_NEWPID, none. -/
def cloneFlags (os : ProcOs) : BitVec 32 :=
  match os.clone1, os.clone2 with
  | .ok _, _ => 0x10000000#32 ||| 0x20000000#32
  | .error _, .ok _ => 0x20000000#32
  | .error _, .error _ => 0#32

/-- What creating a process does to the children: `clone`, and then what becomes of the new process: the program is
executed (entry.rs:241), or could not be, and `libc::exit(errno)` is called (entry.rs:251), or it gives up with
`libc::exit(1)` (error.rs:38). Simplification: one that ends has ended by the time the creation returns. -/
def Kids.create (k : Kids) (os : ProcOs) : Option Child → Kids
  | none => k
  | some ch =>
    let k := k.clone (cloneFlags os) ch.pid
    match ch.ending with
    | .started _ => k.exec ch.pid
    | .execFailed e _ => k.exit ch.pid (e % 256 * 256)
    | .gaveUp => k.exit ch.pid (1 * 256)

/-- A call of `Worker::new` (broker/src/worker.rs:18): its arguments, and what the system decides. -/
structure NewCall where
  abi : Abi
  table : FdTable
  caps : Caps
  config : ProcessConfig
  policy : Policy
  os : NewOs

/-- What the call does. -/
def NewCall.run (c : NewCall) : NewRun := workerNew c.abi c.table c.caps c.config c.policy c.os

/-- What happens to the children of a broker. -/
inductive KidEvent
  /-- the program calls `Worker::new` -/
  | create (c : NewCall)
  /-- the program drops a `Worker`, or calls iris_worker_free -/
  | freed (pid : Nat)
  /-- a process ends -/
  | ended (pid status : Nat)
  /-- the program calls `waitpid` -/
  | wait (which : Option Nat) (flags : BitVec 32)
  /-- the program starts or stops ignoring SIGCHLD -/
  | ignore (on : Bool)

/-- One event. Dropping a worker does nothing to its process (broker/src/linux/process.rs:17-24 has no `Drop`). -/
def Kids.step (k : Kids) : KidEvent → Kids
  | .create c => k.create c.os.proc c.run.child
  | .freed _ => k
  | .ended pid status => k.exit pid status
  | .wait which flags => (k.wait which flags).2
  | .ignore on => { k with ignores := on }

/-- Many events. -/
def Kids.run (k : Kids) (l : List KidEvent) : Kids := l.foldl Kids.step k

end Iris
