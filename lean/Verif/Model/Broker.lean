import Verif.Model.Channel
import Verif.Model.LinuxMessages
/-!
# The broker's message loop on Linux

Models broker/src/linux/ipc_loop.rs and broker/src/linux/brokered_syscalls.rs.
Every decision of the operating system is an input.
-/
namespace Iris

/-- What the operating system decides during one iteration of the loop. -/
structure OsChoice where
  /-- how many received descriptors can be installed -/
  canInstall : Nat
  /-- the outcome of `open`: an errno, or the file now open -/
  openResult : Except Nat Nat
  /-- a failure of `sendmsg` -/
  sendError : Option Nat
deriving DecidableEq

/-- What the broker does that can be observed from outside. -/
inductive Action
  /-- a log callback is called -/
  | notified (n : Notification Request)
  /-- `open(path, flags, mode)` is called -/
  | opened (path : Str) (flags mode : BitVec 32)
  /-- a reply is sent, with the open files attached to it -/
  | sent (resp : IPCResponse) (files : List Nat)
deriving DecidableEq

/-- broker/src/error.rs:10-18 `BrokerError`. -/
inductive BrokerError
  | conflictingEnvironmentVariable (name : Bytes)
  | missingCommandLine
  | cannotBuildPolicyForWorker (e : PolicyError)
  | workerCommunicationError
  | unexpectedWorkerMessage
  | internalOsOperationFailed (description : Str) (osCode : Nat)
  | processExitedDuringInitialization
deriving DecidableEq, Repr

def EACCES : Nat := 13
def EINVAL : Nat := 22
def ENOSYS : Nat := 38

/-- `-(errno as i64)`. -/
def negErrno (e : Nat) : BitVec 64 := -(BitVec.ofNat 64 e)

/-- broker/src/linux/brokered_syscalls.rs:17 `S_IRUSR | S_IWUSR`. -/
def openMode : BitVec 32 := 0x180#32

/-- The result of serving a request: a reply with the descriptor to attach, or a
panic. -/
inductive Served
  | reply (t : FdTable) (resp : IPCResponse) (handle : Option Nat) (acts : List Action)
  | panic (acts : List Action)

/-- broker/src/linux/brokered_syscalls.rs:8-35 `proxied_open_file`.
`CString::new(path).unwrap()` (line 18) panics if the path contains a NUL.
Opening allocates the lowest free descriptor; the flags passed to `open` are
the worker's. -/
def proxiedOpenFile [Target] (p : Policy) (t : FdTable) (path : Str) (flags : BitVec 32)
    (os : OsChoice) : Served :=
  let (verdict, log) := p.evaluate (.fileOpen path flags)
  let log := log.map Action.notified
  if verdict ≠ .granted then .reply t (.syscallResult (negErrno EACCES)) none log
  else if '\x00' ∈ path then .panic log
  else
    let acts := log ++ [.opened path flags openMode]
    match os.openResult with
    | .error e => .reply t (.syscallResult (negErrno e)) none acts
    | .ok file =>
      let (fd, t) := t.alloc ⟨file, if flags &&& O_CLOEXEC ≠ 0#32 then FD_CLOEXEC else 0#32⟩
      .reply t (.syscallResult 0#64) (some fd) acts

/-- broker/src/linux/brokered_syscalls.rs:37-46 `proxied_syscall`. -/
def proxiedSyscall [Target] (p : Policy) (t : FdTable) (nb : BitVec 64) (args : Args6)
    (ip : BitVec 64) : Served :=
  .reply t (.syscallResult (negErrno ENOSYS)) none
    ((p.evaluate (.syscall nb args ip)).2.map Action.notified)

/-- broker/src/linux/ipc_loop.rs:61-68. -/
def serveRequest [Target] (p : Policy) (t : FdTable) (os : OsChoice) : IPCRequest → Served
  | .openFile path flags => proxiedOpenFile p t path flags os
  | .syscall nb args ip => proxiedSyscall p t nb args ip
  | .initialization => .reply t (.syscallResult (negErrno EINVAL)) none []

inductive Status | running | ended | panicked
deriving DecidableEq, Repr

/-- The thread serving one worker: the broker's descriptor table, the descriptor of
this channel, whether the thread still runs, and all it did so far. -/
structure Broker where
  table : FdTable
  chan : Nat
  status : Status
  trace : List Action
deriving DecidableEq

/-- broker/src/linux/ipc_loop.rs:69-73: send the reply, drop the handle. Leaving
the loop (or unwinding) drops the channel, which closes its descriptor. -/
def Broker.finish (abi : Abi) (s : Broker) (os : OsChoice) : Served → Broker
  | .panic acts =>
    { s with table := s.table.erase s.chan, status := .panicked, trace := s.trace ++ acts }
  | .reply t resp handle acts =>
    match channelSend abi t (sendResponse resp) handle os.sendError with
    | .ok d =>
      { s with table := dropHandle t handle, trace := s.trace ++ acts ++ [.sent resp d.files] }
    | .error _ =>
      { s with table := (dropHandle t handle).erase s.chan, status := .ended,
               trace := s.trace ++ acts }

/-- broker/src/linux/ipc_loop.rs:45-74: one iteration of the loop. -/
def Broker.step [Target] (abi : Abi) (p : Policy) (s : Broker) (inc : Incoming) (os : OsChoice) :
    Broker :=
  if s.status ≠ .running then s
  else match channelRecv abi decRequest IPC_MESSAGE_MAX_SIZE os.canInstall s.table inc with
    | (t, .ok (some (m, none))) =>
      Broker.finish abi { s with table := t } os (serveRequest p t os m)
    | (t, .ok (some (_, some h))) => { s with table := (t.erase h).erase s.chan, status := .ended }
    | (t, _) => { s with table := t.erase s.chan, status := .ended }

/-- Everything that happens on one channel. -/
def Broker.run [Target] (abi : Abi) (p : Policy) (s : Broker) (ins : List (Incoming × OsChoice)) :
    Broker := ins.foldl (fun s i => s.step abi p i.1 i.2) s

/-- broker/src/linux/ipc_loop.rs:8-81 `start_ipc_loop`, up to the start of the
thread. `filter` is the result of `compute_seccomp_filter` (an error gives an
empty filter, lines 28-31), `spawnOk` that of creating the thread. On failure the
channel is dropped. Simplified: the text of the last error ends with the reason the system gives,
which is left out. -/
def startIpcLoop (abi : Abi) (p : Policy) (t : FdTable) (chan : Nat) (inc : Incoming)
    (os : OsChoice) (filter : Option Bytes) (spawnOk : Bool) :
    Except BrokerError Broker × FdTable × List Action :=
  match channelRecv abi decRequest IPC_MESSAGE_MAX_SIZE os.canInstall t inc with
  | (t, .ok (some (.initialization, none))) =>
    let resp := .initialization p (filter.getD [])
    match channelSend abi t (sendResponse resp) none os.sendError with
    | .error _ => (.error .workerCommunicationError, t.erase chan, [])
    | .ok d =>
      let acts := [.sent resp d.files]
      if spawnOk then (.ok ⟨t, chan, .running, acts⟩, t, acts)
      else (.error (.internalOsOperationFailed c!"cannot create ipc thread" 0), t.erase chan, acts)
  | (t, .ok (some (_, h))) => (.error .unexpectedWorkerMessage, (dropHandle t h).erase chan, [])
  | (t, .ok none) => (.error .processExitedDuringInitialization, t.erase chan, [])
  | (t, .error _) => (.error .workerCommunicationError, t.erase chan, [])

/-- Everything a broker's session depends on: its descriptor table and channel, the
first thing received, and what is received afterwards. -/
structure Session where
  table : FdTable
  chan : Nat
  first : Incoming
  osFirst : OsChoice
  filter : Option Bytes
  spawnOk : Bool
  rest : List (Incoming × OsChoice)

/-- The result of `start_ipc_loop`. -/
def Session.start (abi : Abi) (p : Policy) (x : Session) :=
  startIpcLoop abi p x.table x.chan x.first x.osFirst x.filter x.spawnOk

/-- The handshake, then, if it succeeded, the loop. -/
def Session.run [Target] (abi : Abi) (p : Policy) (x : Session) : Broker :=
  match x.start abi p with
  | (.ok s, _, _) => s.run abi p x.rest
  | (.error _, t, acts) => ⟨t, x.chan, .ended, acts⟩

end Iris
