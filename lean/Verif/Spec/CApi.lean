import Verif.Model.CApi
/-!
# The C interface, as documented

From the comments of bindings/C/broker/src/*.rs: objects behave as the Rust ones; a handle given to a
policy remains the caller's; a handle given to a configuration is the configuration's, which closes
it when it is replaced or when the configuration is freed (the comments do not say).
-/
namespace Iris.Spec

/-- What a pointer stands for. A policy also knows how many handles it was given. -/
inductive DocObj
  | policy (p : Policy) (given : Nat)
  | config (c : ProcessConfig)
  | worker (pid : Nat)
deriving DecidableEq

/-- The objects a caller has, the descriptors of the process, and those the library closed. -/
structure Doc where
  objs : Nat → Option DocObj
  table : FdTable
  closed : List Nat

def Doc.set (d : Doc) (p : Nat) (o : Option DocObj) : Doc :=
  { d with objs := fun q => if q = p then o else d.objs q }

def Doc.close (d : Doc) (fds : List Nat) : Doc :=
  { d with table := fds.foldl (fun t fd => t.erase fd) d.table, closed := d.closed ++ fds }

/-- A new object has an address of its own. -/
def Doc.add (d : Doc) (addr : Nat) (o : DocObj) : Option (Doc × Reply) :=
  if addr = 0 ∨ d.objs addr ≠ none then none else some (d.set addr (some o), ⟨.success, some addr⟩)

/-- The status of a result: success, or the code of the error. -/
def status {ε : Type} (code : ε → IrisStatus) (r : Except ε Unit) : IrisStatus :=
  match r with
  | .ok _ => .success
  | .error e => code e

/-- The stream's descriptor in a configuration, and that configuration with another. -/
def streamOf (c : ProcessConfig) : Stream → Option Nat
  | .stdin => c.stdin
  | .stdout => c.stdout
  | .stderr => c.stderr

def withStream (c : ProcessConfig) (h : Option Nat) : Stream → ProcessConfig
  | .stdin => { c with stdin := h }
  | .stdout => { c with stdout := h }
  | .stderr => { c with stderr := h }

/-- The Rust function each of the six C functions is documented to be (the names are the same), with its
arguments in order. -/
def rustCall (path : Str) (k : FsKind) : FsCall :=
  match k with
  | .fileRead => FsCall.fileRead path
  | .fileWrite => FsCall.fileWrite path
  | .fileLock readers writers deleters => FsCall.fileLock path readers writers deleters
  | .dirRead => FsCall.dirRead path
  | .dirWrite => FsCall.dirWrite path
  | .dirLock readers writers deleters => FsCall.dirLock path readers writers deleters

def refused (d : Doc) : Option (Doc × Reply) := some (d, ⟨.invalidArguments, none⟩)

/-- What each call is documented to do. `none`: the caller broke the rules (a pointer that is not
to a live object of the right type). -/
def Doc.step (abi : Abi) (d : Doc) : CCall → Option (Doc × Reply)
  | .policyNew audit addr => d.add addr (.policy (if audit then .auditOnlyPolicy else .nothingAllowed) 0)
  | .policyFree p =>
    match d.objs p with
    | some (.policy _ _) => some (d.set p none, ⟨.success, none⟩)
    | _ => none
  | .allowInherit p raw =>
    if p = 0 then refused d
    else match d.objs p with
      | some (.policy x given) =>
        if raw.toNat < 2 ^ 31 then
          if given < 32 then
            let r := x.allowInheritHandle raw.toNat ((isInheritable d.table raw.toNat).mapError PolicyError.ofHandle)
            some (d.set p (some (.policy r.2 (given + 1))), ⟨status .ofPolicy r.1, none⟩)
          else some (d, ⟨.tooManyHandles, none⟩)
        else some (d, ⟨.handleInvalidValue, none⟩)
      | _ => none
  | .allowFs p path k =>
    if p = 0 ∨ path = none then refused d
    else match d.objs p with
      | some (.policy x given) =>
        match path.bind fromUtf8 with
        | some str =>
          let r := x.fsCall linuxOs (rustCall str k)
          some (d.set p (some (.policy r.2 given)), ⟨status .ofPolicy r.1, none⟩)
        | none => some (d, ⟨.nonUtf8Path, none⟩)
      | _ => none
  | .addLogCallback p cb =>
    if p = 0 then refused d
    else match d.objs p with
      | some (.policy x given) =>
        some (d.set p (some (.policy (x.addLogCallback cb) given)), ⟨.success, none⟩)
      | _ => none
  | .configNew exe argv out addr =>
    match exe, argv, out with
    | some exe, some (a :: as), true => d.add addr (.config (.new exe (a :: as)))
    | _, _, _ => refused d
  | .configFree c =>
    match d.objs c with
    | some (.config x) =>
      some ((d.set c none).close ([x.stdin, x.stdout, x.stderr].filterMap id), ⟨.success, none⟩)
    | _ => none
  | .cwd c v =>
    if c = 0 then refused d
    else match d.objs c with
      | some (.config x) =>
        some (d.set c (some (.config (x.call (.cwd v)).2)), ⟨status .ofBroker (x.call (.cwd v)).1, none⟩)
      | _ => none
  | .env c v =>
    match v with
    | none => refused d
    | some v =>
      if c = 0 then refused d
      else match d.objs c with
        | some (.config x) =>
          some (d.set c (some (.config (x.call (.env v)).2)), ⟨status .ofBroker (x.call (.env v)).1, none⟩)
        | _ => none
  | .redirect st c raw =>
    if c = 0 then refused d
    else match d.objs c with
      | some (.config x) =>
        if raw = 0xffffffffffffffff#64 then
          some ((d.set c (some (.config (withStream x none st)))).close (streamOf x st).toList, ⟨.success, none⟩)
        else if raw.toNat < 2 ^ 31 then
          some ((d.set c (some (.config (withStream x (some raw.toNat) st)))).close (streamOf x st).toList,
            ⟨.success, none⟩)
        else some (d, ⟨.handleInvalidValue, none⟩)
      | _ => none
  | .workerNew c p out addr caps os =>
    if c = 0 ∨ p = 0 ∨ out = false then refused d
    else match d.objs c, d.objs p with
      | some (.config x), some (.policy y _) =>
        let run := Iris.workerNew abi d.table caps x y os
        match run.result with
        | .error e => some ({ d with table := run.table }, ⟨.ofBroker e, none⟩)
        | .ok (pid, _) => Doc.add { d with table := run.table } addr (.worker pid)
      | _, _ => none
  | .workerPid w out =>
    if w = 0 ∨ out = false then refused d
    else match d.objs w with
      | some (.worker pid) => some (d, ⟨.success, some pid⟩)
      | _ => none
  | .workerFree w =>
    match d.objs w with
    | some (.worker _) => some (d.set w none, ⟨.success, none⟩)
    | _ => none

def Doc.run (abi : Abi) (d : Doc) : List CCall → Option (Doc × List Reply)
  | [] => some (d, [])
  | c :: cs => (d.step abi c).bind fun x => (x.1.run abi cs).map fun y => (y.1, x.2 :: y.2)

def Doc.start (t : FdTable) : Doc := ⟨fun _ => none, t, []⟩

/-- What an object in memory stands for. -/
def meaning : CObj → DocObj
  | .policy p => .policy p.inner (p.slots.countP Option.isSome)
  | .config c => .config c.inner
  | .worker pid => .worker pid

/-- The program's state is as documented. -/
structure Agree (s : CState) (d : Doc) : Prop where
  objs : ∀ p, (s.heap p).map meaning = d.objs p
  table : s.table = d.table
  closed : s.closed = d.closed

/-- C56 in full: a program which follows the rules gets from every call what is documented, and what
it has is as documented. -/
def AsDocumented (abi : Abi) : Prop :=
  ∀ (t : FdTable) (calls : List CCall) (d : Doc) (rs : List Reply),
    (Doc.start t).run abi calls = some (d, rs) →
    ∃ s, (CState.start t).run abi calls = some (s, rs) ∧ Agree s d

/-- The errors of the library, of every type. -/
inductive LibError
  | policy (e : PolicyError)
  | broker (e : BrokerError)
  | handle (e : HandleError)
  | ipc (e : IpcErrorKind)

/-- The status code the C interface gives for it. -/
def LibError.code : LibError → BitVec 64
  | .policy e => (IrisStatus.ofPolicy e).code
  | .broker e => (IrisStatus.ofBroker e).code
  | .handle e => (IrisStatus.ofHandle e).code
  | .ipc e => (IrisStatus.ofIpc e).code

/-- The name of the kind of an error. -/
def policyKind : PolicyError → String
  | .invalidHandleValue _ => "policy: invalid handle value"
  | .handleNotInheritable _ => "policy: handle not inheritable"
  | .unsupportedFilesystemPath _ => "policy: unsupported filesystem path"
  | .unsupportedRegistryPath _ => "policy: unsupported registry path"
  | .internalOsOperationFailed _ _ => "policy: operation failed"

/-- A broker's error which wraps a policy's is that policy's. -/
def LibError.kind : LibError → String
  | .policy e => policyKind e
  | .broker (.conflictingEnvironmentVariable _) => "broker: conflicting environment variable"
  | .broker .missingCommandLine => "broker: missing command line"
  | .broker (.cannotBuildPolicyForWorker e) => policyKind e
  | .broker .workerCommunicationError => "broker: worker communication error"
  | .broker .unexpectedWorkerMessage => "broker: unexpected worker message"
  | .broker (.internalOsOperationFailed _ _) => "broker: operation failed"
  | .broker .processExitedDuringInitialization => "broker: process exited during initialization"
  | .handle (.invalidHandleValue _) => "handle: invalid handle value"
  | .handle (.internalOsOperationFailed _ _ _) => "handle: operation failed"
  | .ipc .unexpectedHandleWithPayload => "ipc: unexpected handle with payload"
  | .ipc .invalidProcessID => "ipc: invalid process id"
  | .ipc .unableToOpenProcessOnTheOtherEnd => "ipc: unable to open process on the other end"
  | .ipc .payloadTooBigToTransmit => "ipc: payload too big to transmit"
  | .ipc .payloadTooBigToSerialize => "ipc: payload too big to serialize"
  | .ipc .payloadTooBigToDeserialize => "ipc: payload too big to deserialize"
  | .ipc .internalSerializationError => "ipc: serialization error"
  | .ipc .internalDeserializationError => "ipc: deserialization error"
  | .ipc .internalOsOperationFailed => "ipc: operation failed"
  | .ipc .invalidHandleValueReceived => "ipc: invalid handle value received"

/-- The numbers a C program sees, as in the table of bindings/C/broker/src/error.rs: those of the interface itself. -/
def interfaceCodes : List (IrisStatus × Nat) :=
  [(.success, 0), (.invalidArguments, 1), (.tooManyHandles, 2), (.nonUtf8Path, 3)]

/-- And those of the kinds of errors. -/
def kindCodes : List (String × Nat) :=
  [("policy: handle not inheritable", 1001), ("policy: unsupported filesystem path", 1002),
   ("policy: unsupported registry path", 1003), ("policy: invalid handle value", 1004), ("policy: operation failed", 1005),
   ("broker: conflicting environment variable", 2001), ("broker: missing command line", 2002),
   ("broker: operation failed", 2003), ("broker: process exited during initialization", 2004),
   ("broker: worker communication error", 2005), ("broker: unexpected worker message", 2006),
   ("ipc: unexpected handle with payload", 3001), ("ipc: invalid process id", 3003),
   ("ipc: unable to open process on the other end", 3004), ("ipc: payload too big to transmit", 3005),
   ("ipc: payload too big to serialize", 3006), ("ipc: payload too big to deserialize", 3007),
   ("ipc: serialization error", 3008), ("ipc: deserialization error", 3009), ("ipc: operation failed", 3010),
   ("ipc: invalid handle value received", 3012), ("handle: invalid handle value", 4001), ("handle: operation failed", 4002)]

/-- What a Rust callback is told, as C data. -/
def sameRequest : Request → CRequest → Prop
  | .fileOpen path flags, .fileOpen bytes cflags => bytes = utf8 path ∧ cflags = flags
  | .syscall nb a ip, .syscall cnb a0 a1 a2 a3 a4 a5 cip =>
    cnb = nb ∧ [a0, a1, a2, a3, a4, a5] = [a.a0, a.a1, a.a2, a.a3, a.a4, a.a5] ∧ cip = ip
  | _, _ => False

def sameVerdict : Verdict → CVerdict → Prop
  | .granted, .granted => True
  | .deniedByPolicy why, .deniedByPolicy cwhy => cwhy = utf8 why
  | .delegationNotSupported why, .delegationNotSupported cwhy => cwhy = utf8 why
  | .invalidRequestParameters a why, .invalidRequestParameters ca cwhy => ca = utf8 a ∧ cwhy = utf8 why
  | _, _ => False

/-- The path of a request, if it has one. -/
def reqPath : Request → Str
  | .fileOpen path _ => path
  | .syscall _ _ _ => []

/-- The call concerns policies only. -/
def OnPolicies : CCall → Bool
  | .policyNew _ _ | .policyFree _ | .allowInherit _ _ | .allowFs _ _ _ | .addLogCallback _ _ => true
  | _ => false

/-- The descriptor a call gives to the library, if any: a stream, or a descriptor to inherit. -/
def given : CCall → List Nat
  | .redirect _ _ raw => if raw.toNat < 2 ^ 31 then [raw.toNat] else []
  | .allowInherit _ raw => if raw.toNat < 2 ^ 31 then [raw.toNat] else []
  | _ => []

/-- A program that gives no descriptor to the library after the library closed it. -/
def NeverGivesClosed (abi : Abi) (s : CState) : List CCall → Prop
  | [] => True
  | c :: cs => (∀ x ∈ given c, x ∉ s.closed) ∧
    ∀ s' r, s.step abi c = some (s', r) → NeverGivesClosed abi s' cs

/-- Whatever such a program does, the library closes each descriptor at most once. -/
def ClosesOnce (abi : Abi) : Prop :=
  ∀ (t : FdTable) (calls : List CCall) (s : CState) (rs : List Reply),
    (CState.start t).run abi calls = some (s, rs) → NeverGivesClosed abi (CState.start t) calls →
    s.closed.Nodup

end Iris.Spec
