import Verif.Model.Process
/-!
# The C interface of the broker

Models bindings/C/broker/src/{lib,error,policy,process_config,broker}.rs on Linux. Memory is a map
from addresses to the boxes made by `Box::into_raw`; using an address with no box of the right
type is undefined behaviour. Strings are given as their bytes, without the final NUL; `none`
is a null pointer.
-/
namespace Iris

/-- bindings/C/broker/src/lib.rs:21. -/
def IRIS_MAX_HANDLES_PER_POLICY : Nat := 32

/-- bindings/C/broker/src/error.rs:6-40 `IrisStatus`. -/
inductive IrisStatus
  | success | invalidArguments | tooManyHandles | nonUtf8Path
  | policyHandleNotInheritable | policyUnsupportedFilesystemPath | policyUnsupportedRegistryPath
  | policyInvalidHandle | policyHandleOsOperationFailed
  | brokerConflictingEnvironmentVariable | brokerMissingCommandLine
  | brokerInternalOsOperationFailed | processExitedDuringInitialization
  | workerCommunicationError | unexpectedWorkerMessage
  | ipcUnexpectedHandleWithPayload | ipcInvalidProcessID | ipcUnableToOpenProcessOnTheOtherEnd
  | ipcPayloadTooBigToTransmit | ipcPayloadTooBigToSerialize | ipcPayloadTooBigToDeserialize
  | ipcInternalSerializationError | ipcInternalDeserializationError
  | ipcInternalOsOperationFailed | ipcHandleOperationFailed | ipcInvalidHandleValueReceived
  | handleInvalidValue | handleInternalOsOperationFailed
deriving DecidableEq, Repr

/-- bindings/C/broker/src/error.rs:5-40: `#[repr(u64)]` and the values. -/
def IrisStatus.code : IrisStatus → BitVec 64
  | .success => 0
  | .invalidArguments => 1
  | .tooManyHandles => 2
  | .nonUtf8Path => 3
  | .policyHandleNotInheritable => 1001
  | .policyUnsupportedFilesystemPath => 1002
  | .policyUnsupportedRegistryPath => 1003
  | .policyInvalidHandle => 1004
  | .policyHandleOsOperationFailed => 1005
  | .brokerConflictingEnvironmentVariable => 2001
  | .brokerMissingCommandLine => 2002
  | .brokerInternalOsOperationFailed => 2003
  | .processExitedDuringInitialization => 2004
  | .workerCommunicationError => 2005
  | .unexpectedWorkerMessage => 2006
  | .ipcUnexpectedHandleWithPayload => 3001
  | .ipcInvalidProcessID => 3003
  | .ipcUnableToOpenProcessOnTheOtherEnd => 3004
  | .ipcPayloadTooBigToTransmit => 3005
  | .ipcPayloadTooBigToSerialize => 3006
  | .ipcPayloadTooBigToDeserialize => 3007
  | .ipcInternalSerializationError => 3008
  | .ipcInternalDeserializationError => 3009
  | .ipcInternalOsOperationFailed => 3010
  | .ipcHandleOperationFailed => 3011
  | .ipcInvalidHandleValueReceived => 3012
  | .handleInvalidValue => 4001
  | .handleInternalOsOperationFailed => 4002

/-- bindings/C/broker/src/error.rs:42-58 `From<PolicyError>`. -/
def IrisStatus.ofPolicy : PolicyError → IrisStatus
  | .handleNotInheritable _ => .policyHandleNotInheritable
  | .invalidHandleValue _ => .policyInvalidHandle
  | .internalOsOperationFailed _ _ => .policyHandleOsOperationFailed
  | .unsupportedFilesystemPath _ => .policyUnsupportedFilesystemPath
  | .unsupportedRegistryPath _ => .policyUnsupportedRegistryPath

/-- bindings/C/broker/src/error.rs:60-79 `From<BrokerError>`. -/
def IrisStatus.ofBroker : BrokerError → IrisStatus
  | .conflictingEnvironmentVariable _ => .brokerConflictingEnvironmentVariable
  | .missingCommandLine => .brokerMissingCommandLine
  | .cannotBuildPolicyForWorker e => .ofPolicy e
  | .workerCommunicationError => .workerCommunicationError
  | .unexpectedWorkerMessage => .unexpectedWorkerMessage
  | .internalOsOperationFailed _ _ => .brokerInternalOsOperationFailed
  | .processExitedDuringInitialization => .processExitedDuringInitialization

/-- bindings/C/broker/src/error.rs:109-118 `From<HandleError>`. -/
def IrisStatus.ofHandle : HandleError → IrisStatus
  | .invalidHandleValue _ => .handleInvalidValue
  | .internalOsOperationFailed _ _ _ => .handleInternalOsOperationFailed

/-- ipc/src/error.rs `IpcError`, all its kinds (Model/Channel.lean has those of Linux only), without
what they carry. -/
inductive IpcErrorKind
  | unexpectedHandleWithPayload | invalidProcessID | unableToOpenProcessOnTheOtherEnd
  | payloadTooBigToTransmit | payloadTooBigToSerialize | payloadTooBigToDeserialize
  | internalSerializationError | internalDeserializationError | internalOsOperationFailed
  | invalidHandleValueReceived
deriving DecidableEq, Repr

/-- bindings/C/broker/src/error.rs:80-107 `From<IpcError>`. -/
def IrisStatus.ofIpc : IpcErrorKind → IrisStatus
  | .unexpectedHandleWithPayload => .ipcUnexpectedHandleWithPayload
  | .invalidProcessID => .ipcInvalidProcessID
  | .unableToOpenProcessOnTheOtherEnd => .ipcUnableToOpenProcessOnTheOtherEnd
  | .payloadTooBigToTransmit => .ipcPayloadTooBigToTransmit
  | .payloadTooBigToSerialize => .ipcPayloadTooBigToSerialize
  | .payloadTooBigToDeserialize => .ipcPayloadTooBigToDeserialize
  | .internalSerializationError => .ipcInternalSerializationError
  | .internalDeserializationError => .ipcInternalDeserializationError
  | .internalOsOperationFailed => .ipcInternalOsOperationFailed
  | .invalidHandleValueReceived => .ipcInvalidHandleValueReceived

/-- bindings/C/broker/src/policy.rs:15-18 `SelfContainedPolicy`. A `Handle` is the number of its
descriptor. The references to handles which `inner` holds point into the vector, whose
elements do not move and are set once, so they are modelled by their value. -/
structure CPolicy where
  inner : Policy
  slots : List (Option Nat)
deriving DecidableEq

/-- bindings/C/broker/src/process_config.rs:10-15 `SelfContainedProcessConfig`. The references
`inner` holds are to the three other fields, of which they always have the current value. -/
structure CConfig where
  inner : ProcessConfig
  stdin : Option Nat
  stdout : Option Nat
  stderr : Option Nat
deriving DecidableEq

/-- The boxes. A worker (broker/src/worker.rs:12-15) is the number of its process. -/
inductive CObj
  | policy (p : CPolicy)
  | config (c : CConfig)
  | worker (pid : Nat)
deriving DecidableEq

/-- The state of a program using the library: its boxes, its descriptors, the `close` calls
made by the library (oldest first) and the worker processes that run. -/
structure CState where
  heap : Nat → Option CObj
  table : FdTable
  closed : List Nat
  running : List Nat

def CState.put (s : CState) (p : Nat) (o : Option CObj) : CState :=
  { s with heap := fun q => if q = p then o else s.heap q }

/-- ipc/src/linux/handle.rs:78-90: `Drop` of a list of handles. -/
def CState.close (s : CState) (fds : List Nat) : CState :=
  { s with table := fds.foldl (fun t fd => t.erase fd) s.table, closed := s.closed ++ fds }

/-- The six functions taking a path. -/
inductive FsKind
  | fileRead | fileWrite | fileLock (r w d : Bool) | dirRead | dirWrite | dirLock (r w d : Bool)
deriving DecidableEq

/-- bindings/C/broker/src/policy.rs:110, 135, 163-168, 193, 218, 246-251: the function each one calls. -/
def FsKind.call (path : Str) : FsKind → FsCall
  | .fileRead => .fileRead path
  | .fileWrite => .fileWrite path
  | .fileLock r w d => .fileLock path r w d
  | .dirRead => .dirRead path
  | .dirWrite => .dirWrite path
  | .dirLock r w d => .dirLock path r w d

inductive Stream | stdin | stdout | stderr
deriving DecidableEq

/-- A call of the interface with its arguments. Pointers to objects are addresses. Where an
object is made, `addr` is the address the allocator chooses, and `out` tells that the pointer
to the result is not null. -/
inductive CCall
  | policyNew (audit : Bool) (addr : Nat)
  | policyFree (p : Nat)
  | allowInherit (p : Nat) (raw : BitVec 64)
  | allowFs (p : Nat) (path : Option Bytes) (k : FsKind)
  | addLogCallback (p : Nat) (cb : Nat)
  | configNew (exe : Option Bytes) (argv : Option (List Bytes)) (out : Bool) (addr : Nat)
  | configFree (c : Nat)
  | cwd (c : Nat) (d : Option Bytes)
  | env (c : Nat) (v : Option Bytes)
  | redirect (st : Stream) (c : Nat) (raw : BitVec 64)
  | workerNew (c p : Nat) (out : Bool) (addr : Nat) (caps : Caps) (os : NewOs)
  | workerPid (w : Nat) (out : Bool)
  | workerFree (w : Nat)

/-- What a call returns, and stores through its result pointer. -/
structure Reply where
  status : IrisStatus
  value : Option Nat
deriving DecidableEq

/-- `Box::into_raw(Box::new(_))`: the allocator returns an address that is not null and not in use;
otherwise there is no continuation (the process aborts). -/
def CState.alloc (s : CState) (addr : Nat) (o : CObj) : Option CState :=
  if addr = 0 ∨ s.heap addr ≠ none then none else some (s.put addr (some o))

/-- `Box::from_raw`: `none` is undefined behaviour. -/
def CState.policyAt (s : CState) (p : Nat) : Option CPolicy :=
  match s.heap p with
  | some (.policy x) => some x
  | _ => none

def CState.configAt (s : CState) (c : Nat) : Option CConfig :=
  match s.heap c with
  | some (.config x) => some x
  | _ => none

def CState.workerAt (s : CState) (w : Nat) : Option Nat :=
  match s.heap w with
  | some (.worker x) => some x
  | _ => none

/-- `match res { Ok(_) => Success, Err(e) => IrisStatus::from(e) }`. -/
def statusOf {ε : Type} (conv : ε → IrisStatus) : Except ε Unit → IrisStatus
  | .ok () => .success
  | .error e => conv e

/-- `referenced_handles.iter_mut().find(|h| h.is_none())` set to `Some(handle)`, `none` if there is
no free slot. -/
def fillSlot : List (Option Nat) → Nat → Option (List (Option Nat))
  | [], _ => none
  | none :: r, fd => some (some fd :: r)
  | some x :: r, fd => (fillSlot r fd).map (some x :: ·)

/-- bindings/C/broker/src/policy.rs:63-94 `iris_policy_allow_inherit_handle`. If there is no free
slot the function returns without leaking the box again (line 81): the box is dropped, with
the handles in it, and then the handle given. -/
def cAllowInherit (s : CState) (p : Nat) (raw : BitVec 64) : Option (CState × Reply) :=
  if p = 0 then some (s, ⟨.invalidArguments, none⟩)
  else match Handle.fromRaw raw with
    | .error e => some (s, ⟨.ofHandle e, none⟩)
    | .ok h => (s.policyAt p).map fun x =>
      let fd := (h.val.getD 0#32).toNat
      match fillSlot x.slots fd with
      | none => ((s.put p none).close (x.slots.filterMap id ++ [fd]), ⟨.tooManyHandles, none⟩)
      | some slots =>
        let (res, inner) := x.inner.allowInheritHandle fd ((isInheritable s.table fd).mapError PolicyError.ofHandle)
        (s.put p (some (.policy ⟨inner, slots⟩)), ⟨statusOf .ofPolicy res, none⟩)

/-- bindings/C/broker/src/policy.rs:96-257: the six functions taking a path, which differ only in the
function they call. -/
def cAllowFs (s : CState) (p : Nat) (path : Option Bytes) (k : FsKind) : Option (CState × Reply) :=
  if p = 0 then some (s, ⟨.invalidArguments, none⟩)
  else match path with
    | none => some (s, ⟨.invalidArguments, none⟩)
    | some bytes =>
      match fromUtf8 bytes with
      | none => some (s, ⟨.nonUtf8Path, none⟩)
      | some str => (s.policyAt p).map fun x =>
        let (res, inner) := x.inner.fsCall linuxOs (k.call str)
        (s.put p (some (.policy { x with inner := inner })), ⟨statusOf .ofPolicy res, none⟩)

/-- The handle that was set for a stream, as a list. -/
def CConfig.held (c : CConfig) : Stream → List Nat
  | .stdin => c.stdin.toList
  | .stdout => c.stdout.toList
  | .stderr => c.stderr.toList

/-- Set a stream in both parts. -/
def CConfig.setStream (c : CConfig) (h : Option Nat) : Stream → CConfig
  | .stdin => { c with stdin := h, inner := (c.inner.call (.stdin h)).2 }
  | .stdout => { c with stdout := h, inner := (c.inner.call (.stdout h)).2 }
  | .stderr => { c with stderr := h, inner := (c.inner.call (.stderr h)).2 }

/-- bindings/C/broker/src/process_config.rs:114-219 `iris_process_config_redirect_stdin`, `_stdout`,
`_stderr`, which differ only in the field. The assignment (line 132) drops the handle that was
there. -/
def cRedirect (s : CState) (st : Stream) (c : Nat) (raw : BitVec 64) : Option (CState × Reply) :=
  if c = 0 then some (s, ⟨.invalidArguments, none⟩)
  else
    let h : Except HandleError (Option Nat) :=
      if raw = 0xffffffffffffffff#64 then .ok none
      else (Handle.fromRaw raw).map fun h => some (h.val.getD 0#32).toNat
    match h with
    | .error e => some (s, ⟨.ofHandle e, none⟩)
    | .ok h => (s.configAt c).map fun x =>
      ((s.put c (some (.config (x.setStream h st)))).close (x.held st), ⟨.success, none⟩)

/-- Apply a function of a configuration (bindings/C/broker/src/process_config.rs:63-112). -/
def cConfigCall (s : CState) (c : Nat) (call : ConfigCall) : Option (CState × Reply) :=
  (s.configAt c).map fun x =>
    let (res, inner) := x.inner.call call
    (s.put c (some (.config { x with inner := inner })), ⟨statusOf .ofBroker res, none⟩)

/-- The process now running, if its program was started. -/
def startedPid : Option Child → List Nat
  | some ⟨pid, _, .started _⟩ => [pid]
  | _ => []

/-- bindings/C/broker/src/broker.rs:15-38 `iris_worker_new`. The process is running if its program
was started (a worker whose creation then failed is not killed either). -/
def cWorkerNew (abi : Abi) (s : CState) (c p : Nat) (out : Bool) (addr : Nat) (caps : Caps) (os : NewOs) :
    Option (CState × Reply) :=
  if c = 0 ∨ p = 0 ∨ out = false then some (s, ⟨.invalidArguments, none⟩)
  else (s.configAt c).bind fun x => (s.policyAt p).bind fun y =>
    let run := workerNew abi s.table caps x.inner y.inner os
    let s := { s with table := run.table, running := s.running ++ startedPid run.child }
    match run.result with
    | .error e => some (s, ⟨.ofBroker e, none⟩)
    | .ok (pid, _) => (s.alloc addr (.worker pid)).map fun s => (s, ⟨.success, some addr⟩)

/-- One call. `none`: undefined behaviour or abort. -/
def CState.step (abi : Abi) (s : CState) : CCall → Option (CState × Reply)
  /- bindings/C/broker/src/policy.rs:20-36 -/
  | .policyNew audit addr =>
    (s.alloc addr (.policy ⟨if audit then .auditOnlyPolicy else .nothingAllowed,
      List.replicate IRIS_MAX_HANDLES_PER_POLICY none⟩)).map fun s => (s, ⟨.success, some addr⟩)
  /- bindings/C/broker/src/policy.rs:38-56: the handles are leaked, not closed -/
  | .policyFree p => (s.policyAt p).map fun _ => (s.put p none, ⟨.success, none⟩)
  | .allowInherit p raw => cAllowInherit s p raw
  | .allowFs p path k => cAllowFs s p path k
  /- bindings/C/broker/src/policy.rs:326-349 -/
  | .addLogCallback p cb =>
    if p = 0 then some (s, ⟨.invalidArguments, none⟩)
    else (s.policyAt p).map fun x =>
      (s.put p (some (.policy { x with inner := x.inner.addLogCallback cb })), ⟨.success, none⟩)
  /- bindings/C/broker/src/process_config.rs:22-47 -/
  | .configNew exe argv out addr =>
    match exe, argv with
    | some exe, some argv =>
      if argv = [] ∨ out = false then some (s, ⟨.invalidArguments, none⟩)
      else (s.alloc addr (.config ⟨.new exe argv, none, none, none⟩)).map fun s =>
        (s, ⟨.success, some addr⟩)
    | _, _ => some (s, ⟨.invalidArguments, none⟩)
  /- bindings/C/broker/src/process_config.rs:49-58: `Drop` of the three handles -/
  | .configFree c => (s.configAt c).map fun x =>
      ((s.put c none).close (x.held .stdin ++ x.held .stdout ++ x.held .stderr), ⟨.success, none⟩)
  | .cwd c d => if c = 0 then some (s, ⟨.invalidArguments, none⟩) else cConfigCall s c (.cwd d)
  | .env c v =>
    if c = 0 then some (s, ⟨.invalidArguments, none⟩)
    else match v with
      | none => some (s, ⟨.invalidArguments, none⟩)
      | some v => cConfigCall s c (.env v)
  | .redirect st c raw => cRedirect s st c raw
  | .workerNew c p out addr caps os => cWorkerNew abi s c p out addr caps os
  /- bindings/C/broker/src/broker.rs:40-55 -/
  | .workerPid w out =>
    if w = 0 ∨ out = false then some (s, ⟨.invalidArguments, none⟩)
    else (s.workerAt w).map fun pid => (s, ⟨.success, some pid⟩)
  /- bindings/C/broker/src/broker.rs:57-65: neither `Worker` nor `OSSandboxedProcess`
  (broker/src/linux/process.rs:13-18) has a `Drop` -/
  | .workerFree w => (s.workerAt w).map fun _ => (s.put w none, ⟨.success, none⟩)

/-- A program: the calls it makes, in order. -/
def CState.run (abi : Abi) (s : CState) : List CCall → Option (CState × List Reply)
  | [] => some (s, [])
  | c :: cs => (s.step abi c).bind fun (s, r) => (s.run abi cs).map fun (s, rs) => (s, r :: rs)

/-- A program that has not called anything yet. -/
def CState.start (t : FdTable) : CState := ⟨fun _ => none, t, [], []⟩

/-! ## Log callbacks -/

/-- bindings/C/broker/src/linux/mod.rs:5-21 `IrisPolicyRequest`, pointers replaced with what they
point to. -/
inductive CRequest
  | fileOpen (path : Bytes) (flags : BitVec 32)
  | syscall (nb arg0 arg1 arg2 arg3 arg4 arg5 ip : BitVec 64)
deriving DecidableEq

/-- bindings/C/broker/src/policy.rs:259-272 `IrisPolicyVerdict`. -/
inductive CVerdict
  | granted
  | deniedByPolicy (why : Bytes)
  | delegationNotSupported (why : Bytes)
  | invalidRequestParameters (argName why : Bytes)
deriving DecidableEq

/-- `CString::new(s).unwrap()`: `none` is the panic on an interior NUL. -/
def cString (s : Str) : Option Bytes := if '\x00' ∈ s then none else some (utf8 s)

/-- bindings/C/broker/src/linux/mod.rs:23-42. -/
def CRequest.ofRust : Request → Option CRequest
  | .fileOpen path flags => (cString path).map (.fileOpen · flags)
  | .syscall nb a ip => some (.syscall nb a.a0 a.a1 a.a2 a.a3 a.a4 a.a5 ip)

/-- bindings/C/broker/src/policy.rs:274-294. -/
def CVerdict.ofRust : Verdict → Option CVerdict
  | .granted => some .granted
  | .deniedByPolicy why => (cString why).map .deniedByPolicy
  | .delegationNotSupported why => (cString why).map .delegationNotSupported
  | .invalidRequestParameters a why =>
    (cString a).bind fun a => (cString why).map fun why => .invalidRequestParameters a why

/-- bindings/C/broker/src/policy.rs:339-346: what the C function registered as callback gets. `none`
is a panic before it is called. -/
def cNotify (n : Notification Request) : Option (Nat × CRequest × CVerdict) :=
  (CRequest.ofRust n.request).bind fun r => (CVerdict.ofRust n.verdict).map fun v => (n.callback, r, v)

end Iris
