import Verif.Model.Process
import Verif.Model.Concurrent
/-!
# Several threads of the broker create workers at once

Models broker/src/worker.rs:18-85 and broker/src/linux/process.rs:27-141 again, one system
call at a time, on the descriptor table the process's threads share: `Worker::new` may be
called from any thread, so that between any two system calls of one call others can happen.
The pieces (`allowHandle`, `cloneEntrypoint`, `readErrno`, `recvFinish`, ...) are the same as
in Model/Process.lean; C129 proves that a call which is not interrupted is the `workerNew` of
that file.
-/
namespace Iris

/-- broker/src/worker.rs:19-32: the descriptors of the two ends of the channel. -/
structure ChanEnds where
  mine : Nat
  theirs : Nat

/-- broker/src/linux/process.rs:34-49: the descriptors of the two ends of the pipe, and the open
file of its write end. -/
structure PipeEnds where
  rd : Nat
  wr : Nat
  file : Nat

/-- Where a call of `Worker::new` is. The policy and configuration are the call's own clones
(worker.rs:34 and 52). -/
inductive CreatePhase
  /-- about to call `socketpair` (ipc/src/linux/channel.rs:27-45) -/
  | begin
  /-- about to get the flags of the worker's end, to make it inheritable (worker.rs:33) -/
  | paired (e : ChanEnds)
  /-- about to set them -/
  | marking (e : ChanEnds) (flags : BitVec 32)
  /-- about to check the next descriptor to be inherited (worker.rs:35-45) -/
  | checking (e : ChanEnds) (p : Policy) (left : List Nat)
  /-- about to call `pipe` (process.rs:36) -/
  | piping (e : ChanEnds) (p : Policy) (c : ProcessConfig)
  /-- about to get the flags of the pipe's write end, to have it closed by `execve` (process.rs:50) -/
  | piped (e : ChanEnds) (p : Policy) (c : ProcessConfig) (q : PipeEnds)
  /-- about to set them -/
  | sealing (e : ChanEnds) (p : Policy) (c : ProcessConfig) (q : PipeEnds) (flags : BitVec 32)
  /-- about to call `clone` (process.rs:104-106) -/
  | cloning (e : ChanEnds) (p : Policy) (c : ProcessConfig) (q : PipeEnds)
  /-- about to close the pipe's write end (process.rs:118) -/
  | cloned (e : ChanEnds) (p : Policy) (q : PipeEnds) (ch : Child)
  /-- about to read the pipe (process.rs:121-127) -/
  | reading (e : ChanEnds) (p : Policy) (q : PipeEnds) (ch : Child)
  /-- the pipe has been read (process.rs:128-140), its read end is about to be closed -/
  | read (e : ChanEnds) (p : Policy) (rd : Nat) (r : Except BrokerError Nat)
  /-- about to close the worker's end of the channel (worker.rs:79) -/
  | handing (e : ChanEnds) (p : Policy) (pid : Nat)
  /-- about to call `recvmsg` (broker/src/linux/ipc_loop.rs:14) -/
  | greeting (mine : Nat) (p : Policy) (pid : Nat)
  /-- `recvmsg` has returned -/
  | greeted (mine : Nat) (p : Policy) (pid : Nat) (r : Except Nat RecvMsg)
  /-- about to answer (ipc_loop.rs:23-41) -/
  | answering (mine : Nat) (p : Policy) (pid : Nat)
  /-- about to create the thread (ipc_loop.rs:43) -/
  | spawning (mine : Nat) (p : Policy) (pid : Nat)
  /-- about to drop what is left, then to return an error -/
  | failing (err : BrokerError) (left : List Nat)
  | failed (err : BrokerError)
  /-- a worker has been created, its channel belongs to the thread serving it -/
  | served (mine : Nat) (pid : Nat)

/-- A call: its arguments, what the system decides, where it is, the process it has created. -/
structure Creation where
  config : ProcessConfig
  policy : Policy
  caps : Caps
  os : NewOs
  phase : CreatePhase
  child : Option Child

/-- `close` everything in `left`, then return `err`. -/
def CreatePhase.fail (err : BrokerError) : List Nat → CreatePhase
  | [] => .failed err
  | l => .failing err l

/-- broker/src/worker.rs:46-53, then broker/src/linux/process.rs:28-30: no system call. -/
def afterChecks (c : ProcessConfig) (e : ChanEnds) (p : Policy) : CreatePhase :=
  match c.setEnv (ipcHandleVar e.theirs) with
  | (.error err, _) => .fail err [e.theirs, e.mine]
  | (.ok (), c) =>
    if c.argv = [] then .fail .missingCommandLine [e.theirs, e.mine] else .piping e p c

/-- broker/src/worker.rs:54-79: an error drops both ends of the channel. -/
def afterRead (e : ChanEnds) (p : Policy) : Except BrokerError Nat → CreatePhase
  | .error err => .fail err [e.theirs, e.mine]
  | .ok pid => .handing e p pid

/-- broker/src/linux/ipc_loop.rs:14-21. -/
def afterGreeting (mine : Nat) (p : Policy) (pid : Nat) :
    Except IpcError (Option (IPCRequest × Option Nat)) → CreatePhase
  | .ok (some (.initialization, none)) => .answering mine p pid
  | .ok (some (_, h)) => .fail .unexpectedWorkerMessage (h.toList ++ [mine])
  | .ok none => .fail .processExitedDuringInitialization [mine]
  | .error _ => .fail .workerCommunicationError [mine]

/-- broker/src/linux/ipc_loop.rs:43-80 and broker/src/worker.rs:84. The text of the error is shortened as in
`startIpcLoop`. -/
def afterSpawn (mine pid : Nat) : Bool → CreatePhase
  | true => .served mine pid
  | false => .fail (.internalOsOperationFailed c!"cannot create ipc thread" 0) [mine]

/-- One system call of `Worker::new`. -/
def Creation.go (abi : Abi) (t : FdTable) (x : Creation) : FdTable × Creation :=
  match x.phase with
  | .begin =>
    match x.os.socketpair with
    | .error e => (t, { x with phase := .failed (.internalOsOperationFailed c!"socketpair() failed" e) })
    | .ok (a, b) =>
      let (mine, t) := t.alloc ⟨a, 0#32⟩
      let (theirs, t) := t.alloc ⟨b, 0#32⟩
      (t, { x with phase := .paired ⟨mine, theirs⟩ })
  | .paired e =>
    match sysGetFd t e.theirs with
    | .error errno =>
      let err := .ofHandle (.internalOsOperationFailed c!"fcntl(F_GETFD) failed" (BitVec.ofNat 64 e.theirs) errno)
      (t, { x with phase := .fail err [e.theirs, e.mine] })
    | .ok flags => (t, { x with phase := .marking e flags })
  | .marking e flags =>
    match sysSetFd t e.theirs ((flags &&& ~~~FD_CLOEXEC) ||| 0#32) with
    | .error errno =>
      let err := .ofHandle (.internalOsOperationFailed c!"fcntl(F_SETFD, FD_CLOEXEC) failed" (BitVec.ofNat 64 e.theirs) errno)
      (t, { x with phase := .fail err [e.theirs, e.mine] })
    | .ok t =>
      let left := e.theirs :: [x.config.stdin, x.config.stdout, x.config.stderr].filterMap id
      (t, { x with phase := .checking e x.policy left })
  | .checking e p [] => (t, { x with phase := afterChecks x.config e p })
  | .checking e p (fd :: left) =>
    match allowHandle t p fd with
    | .error err => (t, { x with phase := .fail err [e.theirs, e.mine] })
    | .ok p => (t, { x with phase := .checking e p left })
  | .piping e p c =>
    match x.os.proc.pipe with
    | .error errno =>
      let err := .internalOsOperationFailed c!"pipe() failed" errno
      (t, { x with phase := .fail err [e.theirs, e.mine] })
    | .ok (r, w) =>
      let (rd, t) := t.alloc ⟨r, 0#32⟩
      let (wr, t) := t.alloc ⟨w, 0#32⟩
      (t, { x with phase := .piped e p c ⟨rd, wr, w⟩ })
  | .piped e p c q =>
    match sysGetFd t q.wr with
    | .error errno =>
      let err := .ofHandle (.internalOsOperationFailed c!"fcntl(F_GETFD) failed" (BitVec.ofNat 64 q.wr) errno)
      (t, { x with phase := .fail err [q.wr, q.rd, e.theirs, e.mine] })
    | .ok flags => (t, { x with phase := .sealing e p c q flags })
  | .sealing e p c q flags =>
    match sysSetFd t q.wr ((flags &&& ~~~FD_CLOEXEC) ||| FD_CLOEXEC) with
    | .error errno =>
      let err := .ofHandle (.internalOsOperationFailed c!"fcntl(F_SETFD, FD_CLOEXEC) failed" (BitVec.ofNat 64 q.wr) errno)
      (t, { x with phase := .fail err [q.wr, q.rd, e.theirs, e.mine] })
    | .ok t => (t, { x with phase := .cloning e p c q })
  | .cloning e p c q =>
    match tryClone x.os.proc with
    | .error err => (t, { x with phase := .fail err [q.wr, q.rd, e.theirs, e.mine] })
    | .ok (pid, _, pidNs) =>
      let ch : Child := ⟨pid, pidNs,
        cloneEntrypoint x.os.proc.entry (entryParams p c x.os.proc q.wr) t x.caps⟩
      (t, { x with phase := .cloned e p q ch, child := some ch })
  | .cloned e p q ch => (t.erase q.wr, { x with phase := .reading e p q ch })
  | .reading e p q ch =>
    (t, { x with phase := .read e p q.rd (readErrno x.os.proc q.file ch.pid ch.ending) })
  | .read e p rd r =>
    (t.erase rd, { x with phase := afterRead e p r })
  | .handing e p pid => (t.erase e.theirs, { x with phase := .greeting e.mine p.runtime pid })
  | .greeting mine p pid =>
    ((startRecv abi t x.os.osFirst x.os.first).1,
     { x with phase := .greeted mine p pid (startRecv abi t x.os.osFirst x.os.first).2 })
  | .greeted mine _ _ (.error _) => (t, { x with phase := .fail .workerCommunicationError [mine] })
  | .greeted mine p pid (.ok r) =>
    ((recvFinish decRequest t r).1, { x with phase := afterGreeting mine p pid (recvFinish decRequest t r).2 })
  | .answering mine p pid =>
    match channelSend abi t (sendResponse (.initialization p (x.os.filter.getD []))) none
        x.os.osFirst.sendError with
    | .error _ => (t, { x with phase := .fail .workerCommunicationError [mine] })
    | .ok _ => (t, { x with phase := .spawning mine p pid })
  | .spawning mine _ pid =>
    (t, { x with phase := afterSpawn mine pid x.os.spawnOk })
  | .failing err [] => (t, { x with phase := .failed err })
  | .failing err (fd :: left) => (t.erase fd, { x with phase := .fail err left })
  | .failed _ => (t, x)
  | .served _ _ => (t, x)

/-- Whether the call has returned. -/
def CreatePhase.over : CreatePhase → Bool
  | .failed _ | .served _ _ => true
  | _ => false

/-- The descriptors a call in progress has opened or received and not closed yet. -/
def CreatePhase.owned : CreatePhase → List Nat
  | .begin => []
  | .paired e | .marking e _ | .checking e _ _ | .piping e _ _ | .handing e _ _ => [e.theirs, e.mine]
  | .piped e _ _ q | .sealing e _ _ q _ | .cloning e _ _ q | .cloned e _ q _ =>
    [q.wr, q.rd, e.theirs, e.mine]
  | .reading e _ q _ => [q.rd, e.theirs, e.mine]
  | .read e _ rd _ => [rd, e.theirs, e.mine]
  | .greeted mine _ _ (.ok r) => r.cmsgs.flatMap (·.fds) ++ [mine]
  | .greeting mine _ _ | .greeted mine _ _ _ | .answering mine _ _ | .spawning mine _ _ => [mine]
  | .failing _ left => left
  | .failed _ | .served _ _ => []

/-- The broker process: its descriptor table and the calls made so far. -/
structure Creators where
  table : FdTable
  calls : Nat → Option Creation

def Creators.put (w : Creators) (j : Nat) (x : FdTable × Creation) : Creators :=
  ⟨x.1, fun k => if k = j then some x.2 else w.calls k⟩

/-- A new call. -/
def Creation.make (c : ProcessConfig) (p : Policy) (caps : Caps) (os : NewOs) : Creation :=
  ⟨c, p, caps, os, .begin, none⟩

/-- What is remembered of an execution: a call was made, with these arguments, the descriptor
table being `before`; or a call made a system call, with the table before and after. -/
inductive CreateEvent
  | made (j : Nat) (c : ProcessConfig) (p : Policy) (caps : Caps) (os : NewOs) (before : FdTable)
  | step (j : Nat) (before after : FdTable)

/-- An execution: calls of `Worker::new` are made, their system calls happen in any order, and
between them anything else the process does (other threads serving workers, opening or closing
files) to descriptors which do not belong to a call in progress, and which none has borrowed
(a configuration and a policy borrow the handles they refer to, which are therefore open
and do not belong to a call). The kernel never gives a descriptor two entries. -/
inductive CreatorsExec (abi : Abi) (borrowed : Policy → ProcessConfig → Nat → Prop) (w : Creators) :
    List CreateEvent → Creators → Prop
  | start : CreatorsExec abi borrowed w [] w
  | call (ls : List CreateEvent) (w1 : Creators) (j : Nat) (c : ProcessConfig) (p : Policy) (caps : Caps)
    (os : NewOs) (he : CreatorsExec abi borrowed w ls w1) (hj : w1.calls j = none)
    (hb : ∀ fd, borrowed p c fd → w1.table.get fd ≠ none ∧
      ∀ k x, w1.calls k = some x → fd ∉ x.phase.owned) :
    CreatorsExec abi borrowed w (ls ++ [.made j c p caps os w1.table])
      (w1.put j (w1.table, .make c p caps os))
  | go (ls : List CreateEvent) (w1 : Creators) (j : Nat) (x : Creation)
    (he : CreatorsExec abi borrowed w ls w1) (hj : w1.calls j = some x) (hx : x.phase.over = false) :
    CreatorsExec abi borrowed w (ls ++ [.step j w1.table (x.go abi w1.table).1])
      (w1.put j (x.go abi w1.table))
  | other (ls : List CreateEvent) (w1 : Creators) (t : FdTable) (he : CreatorsExec abi borrowed w ls w1)
    (hn : (t.map Prod.fst).Nodup)
    (ho : ∀ j x, w1.calls j = some x → ∀ fd ∈ x.phase.owned, t.get fd = w1.table.get fd)
    (hb : ∀ j x, w1.calls j = some x → x.phase.over = false →
      ∀ fd, borrowed x.policy x.config fd → t.get fd = w1.table.get fd) :
    CreatorsExec abi borrowed w ls { w1 with table := t }

end Iris
