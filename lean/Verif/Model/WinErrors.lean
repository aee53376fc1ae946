import Verif.Model.WinLaunch
/-!
# The errors of the creation of a Windows worker

`Worker::new` on Windows again (Model/WinLaunch.lean), now with what each error says: the failed call and the code of
the system. Models the error paths of broker/src/worker.rs, broker/src/windows/process.rs:173-534,
broker/src/windows/proc_thread_attribute_list.rs:27-57, ipc/src/windows/channel.rs:34-153 and
broker/src/windows/ipc_loop.rs:9-107. `C130_channel` and `C130_first_cause`
say that it errs exactly when `winWorkerNew` does.
-/
namespace Iris

/-- What `GetLastError` gives after the calls that fail, in the n-th iteration for those in the loop; the reason the
system gives when no thread can be created; and what `to_string_lossy` makes of bytes that are not UTF-8. -/
structure LaunchCodes where
  setInheritable : BitVec 32
  windowsDirectory : BitVec 32
  list : Nat → BitVec 32
  create : Nat → BitVec 32
  getPid : Nat → BitVec 32
  openProcess : BitVec 32
  spawn : Str
  replace : Bytes → Str

/-- An `InternalOsOperationFailed` of ipc/src/error.rs: its description and its code. -/
abbrev OsFailure := Str × Nat

/-- ipc/src/windows/channel.rs:90-119. -/
def finishChannelErr (w : PipeWorld) (h1 h2 : BitVec 64) (r : PipeRound) : Option OsFailure :=
  let w := w.others r.before3
  match r.connect, w.connected h1 with
  | some e, false => some (c!"ConnectNamedPipe() failed", e.toNat)
  | none, false =>
    if (w.others r.waiting).connected h1 then
      r.setMode.map fun e => (c!"SetNamedPipeHandleState() failed", e.toNat)
    else none
  | _, true => r.setMode.map fun e => (c!"SetNamedPipeHandleState() failed", e.toNat)

/-- One iteration, ipc/src/windows/channel.rs:37-121: its error, if it ends with one. -/
def channelAttemptErr (w : PipeWorld) (name : Bytes) (r : PipeRound) : Option OsFailure :=
  match createNamedPipe (w.others r.before1) name r.create with
  | (.error e, _) => if e = 5 then none else some (c!"CreateNamedPipe() failed", e.toNat)
  | (.ok h1, w) =>
    match openPipe (w.others r.before2) name r.open_ with
    | (.error e, _) => some (c!"CreateFile() failed", e.toNat)
    | (.ok h2, w) => finishChannelErr w h1 h2 r

/-- ipc/src/windows/channel.rs:34-122 `new`, for at most `n` iterations: its error, if it ends with one. -/
def channelNewErr (pid : BitVec 32) (rounds : Nat → PipeRound) : Nat → Nat → BitVec 32 → PipeWorld → Option OsFailure
  | 0, _, _, _ => none
  | n + 1, k, id, w =>
    (pipeName pid (id + 1)).bind fun name =>
      match channelAttempt w name (rounds k) with
      | (.again, w) => channelNewErr pid rounds n (k + 1) (id + 1) w
      | _ => channelAttemptErr w name (rounds k)

/-- broker/src/windows/process.rs:386-532: why the iteration fails, if it does. -/
def winFinishErr (codes : LaunchCodes) (cmdline : Bytes) (inherited : List (BitVec 64)) (f : WinFlags) (k : Nat)
    (r : WinRound) : Option OsFailure :=
  match trySet f.filterHandles r (.handleList (handlesToInherit inherited)) [] with
  | none => none
  | some _ =>
    match trySet f.blockChildren r (.childProcessPolicy 1) [] with
    | none => none
    | some _ =>
      match trySet f.mitigations r (.mitigationPolicy mitigationValue) [] with
      | none => none
      | some _ =>
        if r.createOk then if r.pid = 0 then some (c!"GetProcessId() failed", (codes.getPid k).toNat) else none
        else if f.mitigations then none
        else some (c!"CreateProcess(" ++ (fromUtf8 cmdline).getD (codes.replace cmdline) ++ c!") failed",
          (codes.create k).toNat)

/-- One iteration, broker/src/windows/process.rs:281-533. -/
def winAttemptErr (codes : LaunchCodes) (cmdline : Bytes) (supported : Bool) (inherited : List (BitVec 64)) (f : WinFlags)
    (s : WinStart) (k : Nat) (r : WinRound) : Option OsFailure :=
  let f := if f.appContainer then f else { f with lessPrivileged := false }
  if r.listOk then
    if f.appContainer then
      if supported then
        match createProfile s r with
        | (false, _) => none
        | (true, _) =>
          match trySet true r (.securityCapabilities s.nextId) [] with
          | none => none
          | some _ =>
            match trySet f.lessPrivileged r (.allApplicationPackagesPolicy 1) [] with
            | none => none
            | some _ => winFinishErr codes cmdline inherited f k r
      else none
    else winFinishErr codes cmdline inherited f k r
  else some (c!"InitializeProcThreadAttributeList()", (codes.list k).toNat)

/-- The loop, broker/src/windows/process.rs:281-533, for at most `n` iterations. -/
def winLoopErr (codes : LaunchCodes) (cmdline : Bytes) (supported : Bool) (inherited : List (BitVec 64))
    (rounds : Nat → WinRound) : Nat → Nat → WinFlags → WinStart → Option OsFailure
  | 0, _, _, _ => none
  | n + 1, k, f, s =>
    match winAttempt supported inherited f s (rounds k) with
    | .again f s => winLoopErr codes cmdline supported inherited rounds n (k + 1) f s
    | _ => winAttemptErr codes cmdline supported inherited f s k (rounds k)

/-- `BrokerError::InternalOsOperationFailed`. -/
def OsFailure.error (x : OsFailure) : BrokerError := .internalOsOperationFailed x.1 x.2

/-- broker/src/windows/process.rs:173-534 `OSSandboxedProcess::new`: its error. -/
def winNewProcessErr (codes : LaunchCodes) (os : LaunchOs) (p : Policy) (c : ProcessConfig) (w : WinWorld) :
    Option BrokerError :=
  match winCommandLine c.exe c.argv with
  | none => some .missingCommandLine
  | some cmdline =>
    if os.windowsDirectory && w.pw.handles.free os.hProcess then
      (winLoopErr codes cmdline os.supported (p.inheritedHandles.map (BitVec.ofNat 64)) os.rounds 6 0
        ⟨true, true, true, true, true⟩ w.start).map OsFailure.error
    else some (.internalOsOperationFailed c!"GetSystemDirectory() failed" codes.windowsDirectory.toNat)

/-- broker/src/worker.rs:57-72: every other error of `set_remote_process` but `InternalOsOperationFailed`, which it does not give. -/
def notAccepted : BrokerError :=
  .internalOsOperationFailed c!"unknown OS operation failed, IPC channel does not accept worker PID" 0

/-- broker/src/worker.rs:32-85, with both ends of the channel. -/
def launchWithErr (codes : LaunchCodes) (os : LaunchOs) (p : Policy) (c : ProcessConfig) (w : WinWorld)
    (workerEnd : BitVec 64) : Option BrokerError :=
  if os.setInheritable then
    let w := { w with inheritable := workerEnd :: w.inheritable }
    match winPrepare w p c workerEnd with
    | .error e => some e
    | .ok (p, c) =>
      match winNewProcess os p c w with
      | (.error _, _) => winNewProcessErr codes os p c w
      | (.ok _, w) =>
        match w.openProcess os with
        | none => some notAccepted
        | some _ =>
          if os.spawn then none
          else some (.internalOsOperationFailed (c!"cannot create ipc thread: " ++ codes.spawn) 0)
  else some (BrokerError.ofHandle (.internalOsOperationFailed c!"SetHandleInformation() failed"
    (workerEnd.setWidth 64) codes.setInheritable.toNat))

/-- broker/src/worker.rs:18-85 `Worker::new`: the error it returns, if it does. -/
def winWorkerErr (codes : LaunchCodes) (os : LaunchOs) (p : Policy) (c : ProcessConfig) (w : WinWorld) :
    Option BrokerError :=
  match channelNew os.pid os.pipes os.tries 0 0 w.pw with
  | some (.error _, _) => (channelNewErr os.pid os.pipes os.tries 0 0 w.pw).map OsFailure.error
  | some (.channel _ b, pw) => launchWithErr codes os p c { w with pw := pw } b
  | _ => none

end Iris
