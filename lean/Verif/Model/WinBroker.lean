import Verif.Model.WinMessages
import Verif.Model.Broker
/-!
# The broker's message loop on Windows

Models broker/src/windows/ipc_loop.rs, broker/src/windows/brokered_syscalls.rs, `send` and `recv` of
ipc/src/windows/channel.rs and the drop of ipc/src/windows/handle.rs. Every decision of the operating
system is an input.
-/
namespace Iris

/-- The handles of a process: value, and the object it refers to. -/
abbrev HTable := List (BitVec 64 × Nat)

/-- The object a value refers to. -/
def HTable.get (t : HTable) (h : BitVec 64) : Option Nat := (t.find? (·.1 = h)).map (·.2)

/-- `CloseHandle`, whose failures are ignored on a value that is not in use. ipc/src/windows/handle.rs:73-86:
this is what dropping a `Handle` does (a `BOOL` is never negative). -/
def HTable.close (t : HTable) (h : BitVec 64) : HTable := t.filter (·.1 ≠ h)

/-- Dropping an `Option<Handle>`. -/
def HTable.drop? (t : HTable) : Option (BitVec 64) → HTable
  | some h => t.close h
  | none => t

/-- A value the kernel may give to a new handle: not zero, not in use. -/
def HTable.free (t : HTable) (h : BitVec 64) : Bool := h != 0#64 && (t.get h).isNone

def STATUS_ACCESS_DENIED : BitVec 32 := 0xC0000022
def STATUS_INSUFFICIENT_RESOURCES : BitVec 32 := 0xC000009A
def REG_OPENED_EXISTING_KEY : BitVec 32 := 2
def OBJ_CASE_INSENSITIVE : BitVec 32 := 0x40

/-- `NT_SUCCESS`: not negative as an `i32`. -/
def ntSuccess (status : BitVec 32) : Bool := !status.msb

/-- The name in the `OBJECT_ATTRIBUTES` given to the kernel, which also has no root directory, no security
descriptor, and `OBJ_CASE_INSENSITIVE`. -/
abbrev ObjectName := List U16

/-- broker/src/windows/brokered_syscalls.rs:85-91, 155-161 and 162-171: a `UNICODE_STRING` whose buffer has
all the units, and whose length in bytes is cut to 16 bits. The kernel reads that many bytes. -/
def unicodeString (s : Str) : ObjectName :=
  let units := utf16 s
  let length : BitVec 16 := BitVec.ofNat 16 (units.length * 2)
  units.take (length.toNat / 2)

/-- The system calls the broker makes. -/
inductive NtCall
  | createFile (access : BitVec 32) (name : ObjectName) (allocation : BitVec 64)
      (attributes share disposition options : BitVec 32) (ea : Bytes)
  | createKey (access : BitVec 32) (name : ObjectName) (titleIndex : BitVec 32) (cls : Option ObjectName)
      (options : BitVec 32)
  | openKey (access : BitVec 32) (name : ObjectName)
deriving DecidableEq, Repr

/-- What such a call returns: the status, `Information` or `Disposition`, and on success a handle (its
value in the broker, and the object). -/
structure NtResult where
  status : BitVec 32
  info : BitVec 64
  disposition : BitVec 32
  handle : BitVec 64
  object : Nat
deriving DecidableEq, Repr

/-- What the operating system decides during one iteration of the loop. -/
structure WinChoice where
  nt : NtResult
  /-- the value of the duplicated handle in the worker, or the failure of `DuplicateHandle` -/
  dup : Option (BitVec 64)
  /-- `WriteFile` succeeds -/
  writeOk : Bool
deriving DecidableEq, Repr

/-- The handles of the broker and of the worker. -/
structure WinTables where
  broker : HTable
  worker : HTable
deriving DecidableEq, Repr

/-- A successful call makes a new handle. A value the kernel cannot give (in use or zero) stands for a
failure. -/
def ntEffect (t : WinTables) (r : NtResult) : WinTables × NtResult :=
  if ntSuccess r.status then
    if t.broker.free r.handle then ({ t with broker := (r.handle, r.object) :: t.broker }, r)
    else (t, { r with status := STATUS_INSUFFICIENT_RESOURCES })
  else (t, r)

/-- What the broker does that can be observed from outside. -/
inductive WinAction
  /-- a log callback is called -/
  | notified (n : Notification WinRequest)
  /-- a system call is made -/
  | called (c : NtCall) (r : NtResult)
  /-- a message is written to the pipe, with the value of a handle of the worker and the object it
  refers to -/
  | sent (resp : WinIPCResponse) (handle : Option (BitVec 64 × Nat))
deriving DecidableEq

/-- What serving a request comes to: the handles, the reply, the handle to send. -/
structure WinServed where
  tables : WinTables
  resp : WinIPCResponse
  handle : Option (BitVec 64)
  acts : List WinAction

/-- broker/src/windows/brokered_syscalls.rs:57-135 `proxied_ntcreatefile`. `get_proc_address` always finds the
function (lines 81-84). -/
def proxiedNtCreateFile (debug : Bool) (p : Policy) (t : WinTables) (os : WinChoice) (access : BitVec 32)
    (path : Str) (allocation : BitVec 64) (attributes share disposition options : BitVec 32) (ea : Bytes) :
    WinServed :=
  let options := options ||| FILE_FLAG_OPEN_REPARSE_POINT
  let (verdict, log) := p.winEvaluate debug (.fileOpen path access attributes share disposition options ea)
  let log := log.map WinAction.notified
  if verdict ≠ .granted then ⟨t, .syscallResult STATUS_ACCESS_DENIED, none, log⟩
  else
    let (t, r) := ntEffect t os.nt
    let acts := log ++ [.called (.createFile access (unicodeString path) allocation FILE_ATTRIBUTE_NORMAL share
      disposition options ea) r]
    ⟨t, .ntCreateFile r.info r.status, if ntSuccess r.status then some r.handle else none, acts⟩

/-- broker/src/windows/brokered_syscalls.rs:137-237 `proxied_ntcreatekey`. -/
def proxiedNtCreateKey (debug : Bool) (p : Policy) (t : WinTables) (os : WinChoice) (access : BitVec 32)
    (path : Str) (titleIndex : BitVec 32) (cls : Option Str) (options : BitVec 32) (create : Bool) :
    WinServed :=
  let (verdict, log) := p.winEvaluate debug (.regKeyOpen path access options create)
  let log := log.map WinAction.notified
  if verdict ≠ .granted then ⟨t, .syscallResult STATUS_ACCESS_DENIED, none, log⟩
  else
    let (t, r) := ntEffect t os.nt
    if create then
      let acts := log ++ [.called (.createKey access (unicodeString path) titleIndex (cls.map unicodeString)
        options) r]
      if ntSuccess r.status then ⟨t, .ntCreateKey r.disposition r.status, some r.handle, acts⟩
      else ⟨t, .ntCreateKey 0 r.status, none, acts⟩
    else
      let acts := log ++ [.called (.openKey access (unicodeString path)) r]
      if ntSuccess r.status then ⟨t, .ntCreateKey REG_OPENED_EXISTING_KEY r.status, some r.handle, acts⟩
      else ⟨t, .ntCreateKey 0 r.status, none, acts⟩

/-- broker/src/windows/ipc_loop.rs:50-91. A second initialization ends the thread (lines 87-90). -/
def winServe (debug : Bool) (p : Policy) (t : WinTables) (os : WinChoice) : WinIPCRequest → Option WinServed
  | .ntCreateFile access path allocation attributes share disposition options ea =>
    some (proxiedNtCreateFile debug p t os access path allocation attributes share disposition options ea)
  | .ntCreateKey access path titleIndex cls options create =>
    some (proxiedNtCreateKey debug p t os access path titleIndex cls options create)
  | .initialization => none

/-- ipc/src/windows/channel.rs:162-189: a handle to send is first duplicated into the worker
(`set_remote_process` was called by broker/src/worker.rs:56-57, so line 165 does not panic). `none` is a
failure of `DuplicateHandle`, also when the value is not that of a handle. -/
def winDuplicate (t : WinTables) (handle : BitVec 64) (os : WinChoice) : Option (WinTables × BitVec 64 × Nat) :=
  match t.broker.get handle, os.dup with
  | some object, some v =>
    if t.worker.free v then some ({ t with worker := (v, object) :: t.worker }, v, object) else none
  | _, _ => none

/-- ipc/src/windows/channel.rs:155-209 `send`: the handles afterwards, and what was written, if anything. -/
def winSend (t : WinTables) (resp : WinIPCResponse) (handle : Option (BitVec 64)) (os : WinChoice) :
    WinTables × Option WinAction :=
  match handle with
  | none =>
    match winWrap (encWinResponse resp) none with
    | none => (t, none)
    | some _ => (t, if os.writeOk then some (.sent resp none) else none)
  | some h =>
    match winDuplicate t h os with
    | none => (t, none)
    | some (t, v, object) =>
      match winWrap (encWinResponse resp) (some v) with
      | none => (t, none)
      | some _ => (t, if os.writeOk then some (.sent resp (some (v, object))) else none)

/-- What `ReadFile` on the pipe gives: one message, the end (`ERROR_BROKEN_PIPE`), or a failure. -/
inductive WinIncoming
  | message (data : Bytes)
  | broken
  | failed (code : Nat)
deriving DecidableEq, Repr

/-- What `recv` returns. -/
inductive WinReceived
  | request (r : WinIPCRequest) (handle : Option (BitVec 64))
  | ended
  | error
deriving DecidableEq, Repr

/-- ipc/src/windows/channel.rs:211-246 `recv::<IPCRequest>`. `ReadFile` fails (`ERROR_MORE_DATA`) on a message
longer than the buffer. -/
def winRecv : WinIncoming → WinReceived
  | .broken => .ended
  | .failed _ => .error
  | .message data =>
    if data.length > IPC_MESSAGE_MAX_SIZE then .error
    else match winUnwrap decWinRequest data with
      | some (r, h) => .request r h
      | none => .error

/-- The thread serving one worker: handles, the two handles of the channel, and all it did. -/
structure WinBroker where
  tables : WinTables
  pipe : BitVec 64
  process : BitVec 64
  running : Bool
  trace : List WinAction
deriving DecidableEq

/-- Leaving the thread drops the channel, that is the handles of the pipe and of the process. -/
def WinBroker.leave (s : WinBroker) : WinBroker :=
  { s with tables := { s.tables with broker := (s.tables.broker.close s.pipe).close s.process }, running := false }

/-- A received handle that is not expected is dropped. -/
def WinBroker.dropReceived (s : WinBroker) (h : Option (BitVec 64)) : WinBroker :=
  { s with tables := { s.tables with broker := s.tables.broker.drop? h } }

/-- broker/src/windows/ipc_loop.rs:92-98: send the reply; the handle is dropped at the end of the iteration, or
when leaving. -/
def WinBroker.finish (s : WinBroker) (os : WinChoice) (x : WinServed) : WinBroker :=
  let (t, sent) := winSend x.tables x.resp x.handle os
  let s := { s with tables := { t with broker := t.broker.drop? x.handle }, trace := s.trace ++ x.acts ++ sent.toList }
  if sent.isSome then s else s.leave

/-- broker/src/windows/ipc_loop.rs:35-98: one iteration of the loop. -/
def WinBroker.step (debug : Bool) (p : Policy) (s : WinBroker) (i : WinIncoming × WinChoice) : WinBroker :=
  if s.running = false then s
  else match winRecv i.1 with
    | .request r none =>
      match winServe debug p s.tables i.2 r with
      | some x => s.finish i.2 x
      | none => s.leave
    | .request _ (some h) => (s.dropReceived (some h)).leave
    | .ended => s.leave
    | .error => s.leave

/-- broker/src/windows/ipc_loop.rs:18-32: the handshake. -/
def WinBroker.handshake (p : Policy) (s : WinBroker) (i : WinIncoming × WinChoice) : WinBroker :=
  match winRecv i.1 with
  | .request .initialization none =>
    match winSend s.tables (.initialization p) none i.2 with
    | (t, some a) => { s with tables := t, trace := s.trace ++ [a] }
    | (t, none) => { s with tables := t }.leave
  | .request _ h => (s.dropReceived h).leave
  | .ended => s.leave
  | .error => s.leave

/-- All that happens in the thread, from its start. -/
def WinBroker.run (debug : Bool) (p : Policy) (s : WinBroker) (first : WinIncoming × WinChoice)
    (rest : List (WinIncoming × WinChoice)) : WinBroker :=
  rest.foldl (fun s i => s.step debug p i) (s.handshake p first)

/-- The thread as it starts: broker/src/windows/ipc_loop.rs:14-17. -/
def WinBroker.start (t : WinTables) (pipe process : BitVec 64) : WinBroker := ⟨t, pipe, process, true, []⟩

end Iris
