import Verif.Model.WinPipe
import Verif.Model.WinProcess
import Verif.Model.Process
/-!
# Creation of a Windows worker, from the channel to the thread serving it

Models `Worker::new` of broker/src/worker.rs on Windows, with the parts of broker/src/windows/process.rs around
the loop of Model/WinProcess.lean, ipc/src/windows/handle.rs, and what the worker does to find its channel
(worker/src/lib.rs). Simplified: no other thread of the broker opens or closes handles meanwhile (Model/WinCreators.lean
is about several threads), and once the channel exists other processes do not touch it.
-/
namespace Iris

/-- A process created by the broker: the object that stands for it, its handles when it starts, its environment block,
its command line, its standard handles, and the attributes it was created with. -/
structure WinChild where
  object : Nat
  handles : HTable
  environment : Bytes
  commandLine : Bytes
  std : List (BitVec 64)
  attributes : List ProcAttr
deriving DecidableEq, Repr

/-- Pipes and the broker's handles; the values of those marked inheritable; the state of process creation; all processes
created. Objects are numbered together with the ends of pipes. -/
structure WinWorld where
  pw : PipeWorld
  inheritable : List (BitVec 64)
  start : WinStart
  children : List WinChild
deriving DecidableEq, Repr

/-- Dropping a `Handle`, ipc/src/windows/handle.rs:73-86. -/
def WinWorld.close (w : WinWorld) (h : BitVec 64) : WinWorld :=
  { w with pw := w.pw.close h, inheritable := w.inheritable.filter (· ≠ h) }

/-- What the system does while a worker is created. Values of handles that are not free stand for a failure. -/
structure LaunchOs where
  /-- `GetCurrentProcessId` -/
  pid : BitVec 32
  pipes : Nat → PipeRound
  /-- the iterations of `IpcChannel::new` to look at -/
  tries : Nat
  /-- `SetHandleInformation` succeeds -/
  setInheritable : Bool
  /-- the broker's environment -/
  sys : Str → Option Str
  /-- `GetSystemWindowsDirectoryA` succeeds -/
  windowsDirectory : Bool
  /-- AppContainers are supported -/
  supported : Bool
  rounds : Nat → WinRound
  /-- the handle `CreateProcess` gives -/
  hProcess : BitVec 64
  /-- the handle `OpenProcess` gives, if it succeeds -/
  opened : Option (BitVec 64)
  /-- the thread can be created -/
  spawn : Bool

/-- ipc/src/windows/handle.rs:46-56 `is_inheritable`, as seen by `allow_inherit_handle`: 6 is `ERROR_INVALID_HANDLE`. -/
def winIsInheritable (w : WinWorld) (raw : Nat) : Except PolicyError Bool :=
  if (w.pw.handles.get (BitVec.ofNat 64 raw)).isNone then
    .error (.internalOsOperationFailed c!"GetHandleInformation() failed" 6)
  else .ok (w.inheritable.contains (BitVec.ofNat 64 raw))

/-- policy/src/policy.rs:75-88 `allow_inherit_handle`, with the conversion of errors of broker/src/error.rs:39-43. -/
def winAllow (w : WinWorld) (p : Policy) (raw : Nat) : Except BrokerError Policy :=
  match p.allowInheritHandle raw (winIsInheritable w raw) with
  | (.ok (), p) => .ok p
  | (.error e, _) => .error (.cannotBuildPolicyForWorker e)

/-- broker/src/worker.rs:36-45: the loop over the redirected streams. -/
def winAllowAll (w : WinWorld) (p : Policy) : List Nat → Except BrokerError Policy
  | [] => .ok p
  | raw :: raws =>
    match winAllow w p raw with
    | .error e => .error e
    | .ok p => winAllowAll w p raws

/-- broker/src/worker.rs:34-53: the policy and the configuration of the new process. -/
def winPrepare (w : WinWorld) (p : Policy) (c : ProcessConfig) (workerEnd : BitVec 64) :
    Except BrokerError (Policy × ProcessConfig) :=
  match winAllow w p workerEnd.toNat with
  | .error e => .error e
  | .ok p =>
    match winAllowAll w p ([c.stdin, c.stdout, c.stderr].filterMap id) with
    | .error e => .error e
    | .ok p =>
      match c.setEnv (ipcHandleVar workerEnd.toNat) with
      | (.error e, _) => .error e
      | (.ok (), c) => .ok (p, c)

/-- `INVALID_HANDLE_VALUE`. -/
def INVALID_HANDLE_VALUE : BitVec 64 := 0xFFFFFFFFFFFFFFFF

/-- The handles of a new process: those of its parent marked inheritable, and in the list of handles if there is one. They
keep their values (`bInheritHandles` is 1, broker/src/windows/process.rs:481). -/
def childHandles (w : WinWorld) (attributes : List ProcAttr) : HTable :=
  w.pw.handles.filter fun e => w.inheritable.contains e.1 && attributes.all fun
    | .handleList l => l.contains e.1
    | _ => true

/-- broker/src/windows/process.rs:455-488: the effect of the last call of `CreateProcess` of this run of the loop, if it
succeeded. The handle of the first thread is closed at once (lines 503-505) and left out. -/
def WinWorld.spawned (os : LaunchOs) (c : ProcessConfig) (cmdline : Bytes) (w : WinWorld) (s : WinStart) : WinWorld :=
  match (s.calls.drop w.start.calls.length).getLast? with
  | some ⟨_, attributes, true⟩ =>
    { w with
      pw := { w.pw with next := w.pw.next + 1, handles := (os.hProcess, w.pw.next) :: w.pw.handles }
      start := s
      children := w.children ++ [⟨w.pw.next, childHandles w attributes, envBlock (mergeEnv os.sys c.envp), cmdline,
        [c.stdin, c.stdout, c.stderr].map fun h => (h.map (BitVec.ofNat 64)).getD INVALID_HANDLE_VALUE, attributes⟩] }
  | _ => { w with start := s }

/-- broker/src/windows/process.rs:173-534 `OSSandboxedProcess::new`. An error is `none` if it carries the code of a failed
system call. What it does to the permissions of DLLs is in Model/WinDlls.lean; it cannot make it fail. The loop ends after six
iterations (`C62_ends`). When `GetProcessId` fails (lines 506-512) the handle of the process is not closed. -/
def winNewProcess (os : LaunchOs) (p : Policy) (c : ProcessConfig) (w : WinWorld) :
    Except (Option BrokerError) WinProcess × WinWorld :=
  match winCommandLine c.exe c.argv with
  | none => (.error (some .missingCommandLine), w)
  | some cmdline =>
    if os.windowsDirectory && w.pw.handles.free os.hProcess then
      match winCreate os.supported (p.inheritedHandles.map (BitVec.ofNat 64)) os.rounds 6 w.start with
      | .again _ s => (.error none, { w with start := s })
      | .failed s => (.error none, w.spawned os c cmdline s)
      | .created q s => (.ok q, w.spawned os c cmdline s)
    else (.error none, w)

/-- broker/src/windows/process.rs:156-171 `Drop`. -/
def WinWorld.dropProcess (os : LaunchOs) (q : WinProcess) (w : WinWorld) : WinWorld :=
  { w.close os.hProcess with start := q.drop os.supported w.start }

/-- ipc/src/windows/channel.rs:135-153 `set_remote_process`, on the process just created. It still has a handle, so the
number cannot be that of another process. -/
def WinWorld.openProcess (os : LaunchOs) (w : WinWorld) : Option (BitVec 64 × WinWorld) :=
  match os.opened, w.pw.handles.get os.hProcess with
  | some h, some object =>
    if w.pw.handles.free h then some (h, { w with pw := { w.pw with handles := (h, object) :: w.pw.handles } }) else none
  | _, _ => none

/-- How `Worker::new` ends: a worker, served by a thread with these handles of the pipe and of the process; an error (`none`
if it carries the code of a failed system call); waiting for ever; or not yet, or with a panic. -/
inductive LaunchEnd
  | worker (process : WinProcess) (pipe remote : BitVec 64)
  | error (e : Option BrokerError)
  | hangs
  | unfinished
  | panics
deriving DecidableEq

/-- broker/src/worker.rs:32-85, with both ends of the channel. Returning drops what there is. -/
def launchWith (os : LaunchOs) (p : Policy) (c : ProcessConfig) (w : WinWorld) (brokerEnd workerEnd : BitVec 64) :
    LaunchEnd × WinWorld :=
  if os.setInheritable then
    let w := { w with inheritable := workerEnd :: w.inheritable }
    match winPrepare w p c workerEnd with
    | .error e => (.error (some e), (w.close workerEnd).close brokerEnd)
    | .ok (p, c) =>
      match winNewProcess os p c w with
      | (.error e, w) => (.error e, (w.close workerEnd).close brokerEnd)
      | (.ok q, w) =>
        match w.openProcess os with
        | none => (.error none, ((w.dropProcess os q).close workerEnd).close brokerEnd)
        | some (h, w) =>
          let w := w.close workerEnd
          if os.spawn then (.worker q brokerEnd h, w)
          else (.error none, ((w.close brokerEnd).close h).dropProcess os q)
  else (.error none, (w.close workerEnd).close brokerEnd)

/-- broker/src/worker.rs:18-85 `Worker::new`. -/
def winWorkerNew (os : LaunchOs) (p : Policy) (c : ProcessConfig) (w : WinWorld) : LaunchEnd × WinWorld :=
  match channelNew os.pid os.pipes os.tries 0 0 w.pw with
  | none => (.panics, w)
  | some (.again, pw) => (.unfinished, { w with pw := pw })
  | some (.hangs, pw) => (.hangs, { w with pw := pw })
  | some (.error _, pw) => (.error none, { w with pw := pw })
  | some (.channel a b, pw) => launchWith os p c { w with pw := pw } a b

/-- The thread of a worker, as it starts (broker/src/windows/ipc_loop.rs:9-17). -/
def winThread (w : WinWorld) (child : WinChild) (pipe remote : BitVec 64) : WinBroker :=
  WinBroker.start ⟨w.pw.handles, child.handles⟩ pipe remote

/-! ## The worker -/

/-- A letter of ASCII in upper case. -/
def upperByte (b : UInt8) : UInt8 := if 97 ≤ b ∧ b ≤ 122 then b - 32 else b

/-- The value in `v` if it is a variable called `name`, where the case of letters is ignored. Simplified: of ASCII letters
only. -/
def winValueOf : Bytes → Bytes → Option Bytes
  | [], b :: r => if b = eqSign then some r else none
  | n :: ns, b :: r => if upperByte n = upperByte b then winValueOf ns r else none
  | _, [] => none

/-- `GetEnvironmentVariableW`: the first entry with this name. -/
def winGetenv (name : Bytes) : List Bytes → Option Bytes
  | [] => none
  | v :: vs =>
    match winValueOf name v with
    | some x => some x
    | none => winGetenv name vs

/-- The strings of an environment block; an empty one ends it. -/
def winStrings (cur : Bytes) : Bytes → List Bytes
  | [] => []
  | b :: rest =>
    if b = 0 then if cur = [] then [] else cur :: winStrings [] rest
    else winStrings (cur ++ [b]) rest

/-- worker/src/lib.rs:13-24: the value of the handle the worker takes for its channel; `none` is a panic.
`Handle::from_raw` never fails on Windows (ipc/src/windows/handle.rs:20-24). -/
def winReadIpcHandle (environment : Bytes) : Option (BitVec 64) :=
  (winGetenv (utf8 IPC_HANDLE_ENV_NAME) (winStrings [] environment)).bind fun v =>
  (fromUtf8 v).bind parseU64

end Iris
