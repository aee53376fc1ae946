import Verif.Model.WinBroker
/-!
# The hooks of the Windows worker

Models `hook_ntcreatefile`, `hook_ntopenfile`, `hook_ntcreatekey`, `send_recv` and
`lower_final_sandbox_privileges` of worker/src/windows/lockdown.rs, in a 64-bit worker.
Simplified: pointers are present or null; the structures a program passes are in different places of memory;
what the code never reads of them is left out. `from_raw_parts` is given a null pointer for a name without
buffer, which Rust leaves undefined even for no units: it is taken here for an empty slice, as compiled.
-/
namespace Iris

def STATUS_INVALID_PARAMETER : BitVec 32 := 0xC000000D
def STATUS_NOT_SUPPORTED : BitVec 32 := 0xC00000BB

/-- `UNICODE_STRING`: a length in bytes, and the units that can be read from its buffer on. -/
structure NtString where
  length : BitVec 16
  buffer : List U16
deriving DecidableEq, Repr

/-- `std::slice::from_raw_parts(Buffer, Length / 2)`, as at worker/src/windows/lockdown.rs:540-545. `none` is a
fault, if memory ends before. -/
def NtString.units (s : NtString) : Option (List U16) :=
  if s.length.toNat / 2 ≤ s.buffer.length then some (s.buffer.take (s.length.toNat / 2)) else none

/-- `OBJECT_ATTRIBUTES`. Its attributes, its security descriptor and its quality of service are never read. -/
structure ObjectAttributes where
  root : BitVec 64
  name : Option NtString
deriving DecidableEq, Repr

/-- How a hook ends: a status for the program, a panic (the process aborts: a panic cannot leave an
`extern "system"` function), or a memory fault. -/
inductive WinRet
  | status (code : BitVec 32)
  | abort
  | fault
deriving DecidableEq, Repr

/-- A hooked call: what was sent to the broker, and what was written through the program's pointers (`none` if
nothing was): the handle, `IO_STATUS_BLOCK.Information`, the disposition. `IO_STATUS_BLOCK.Status` is never
written. -/
structure Hooked where
  sent : Option WinIPCRequest := none
  handle : Option (BitVec 64) := none
  info : Option (BitVec 64) := none
  disposition : Option (BitVec 32) := none
  ret : WinRet
deriving DecidableEq, Repr

/-- What the system does with a request: `WriteFile` succeeds, and then `ReadFile` gives something. -/
structure WinIo where
  writeOk : Bool
  incoming : WinIncoming
deriving DecidableEq, Repr

/-- worker/src/windows/lockdown.rs:730-742 `send_recv`, and ipc/src/windows/channel.rs:211-246 `recv::<IPCResponse>`;
`none` is one of the three `expect` panics. -/
def winSendRecv (req : WinIPCRequest) (io : WinIo) : Option (WinIPCResponse × Option (BitVec 64)) :=
  match winWrap (encWinRequest req) none with
  | none => none
  | some _ =>
    if io.writeOk then
      match io.incoming with
      | .message data =>
        if data.length > IPC_MESSAGE_MAX_SIZE then none else winUnwrap decWinResponse data
      | .broken => none
      | .failed _ => none
    else none

/-- The parameters of `NtCreateFile`: whether `file_handle` and `io_status_block` are there, and the others. -/
structure CreateFileArgs where
  fileHandle : Bool
  access : BitVec 32
  objectAttributes : Option ObjectAttributes
  ioStatusBlock : Bool
  allocation : Option (BitVec 64)
  attributes : BitVec 32
  share : BitVec 32
  disposition : BitVec 32
  options : BitVec 32
  eaLength : BitVec 32
deriving DecidableEq, Repr

/-- worker/src/windows/lockdown.rs:573-592: the end of `hook_ntcreatefile`, and of `hook_ntopenfile` (lines
634-653). -/
def finishFile (req : WinIPCRequest) (io : WinIo) : Hooked :=
  match winSendRecv req io with
  | some (.ntCreateFile info code, handle) =>
    { sent := some req, handle := some (handle.getD 0), info := some info, ret := .status code }
  | some (.syscallResult code, none) =>
    { sent := some req, handle := some 0, info := some 0, ret := .status code }
  | _ => { sent := some req, handle := some 0, info := some 0, ret := .abort }

/-- worker/src/windows/lockdown.rs:512-592 `hook_ntcreatefile`. The extended attributes sent are always empty:
calls with some are refused at line 533. -/
def hookNtCreateFile (a : CreateFileArgs) (io : WinIPCRequest → WinIo) : Hooked :=
  match a.fileHandle, a.objectAttributes, a.ioStatusBlock with
  | true, some oa, true =>
    if oa.root ≠ 0 ∨ a.eaLength ≠ 0 then { handle := some 0, info := some 0, ret := .status STATUS_NOT_SUPPORTED }
    else match oa.name with
      | none => { handle := some 0, info := some 0, ret := .status STATUS_INVALID_PARAMETER }
      | some name =>
        match name.units with
        | none => { handle := some 0, info := some 0, ret := .fault }
        | some units =>
          let req := .ntCreateFile a.access (fromUtf16Lossy units) (a.allocation.getD 0) a.attributes a.share
            a.disposition a.options []
          finishFile req (io req)
  | _, _, _ => { ret := .status STATUS_INVALID_PARAMETER }

/-- The parameters of `NtOpenFile`. -/
structure OpenFileArgs where
  fileHandle : Bool
  access : BitVec 32
  objectAttributes : Option ObjectAttributes
  ioStatusBlock : Bool
  share : BitVec 32
  options : BitVec 32
deriving DecidableEq, Repr

/-- worker/src/windows/lockdown.rs:594-653 `hook_ntopenfile`. -/
def hookNtOpenFile (a : OpenFileArgs) (io : WinIPCRequest → WinIo) : Hooked :=
  match a.fileHandle, a.objectAttributes, a.ioStatusBlock with
  | true, some oa, true =>
    if oa.root ≠ 0 then { handle := some 0, info := some 0, ret := .status STATUS_NOT_SUPPORTED }
    else match oa.name with
      | none => { handle := some 0, info := some 0, ret := .status STATUS_INVALID_PARAMETER }
      | some name =>
        match name.units with
        | none => { handle := some 0, info := some 0, ret := .fault }
        | some units =>
          let req := .ntCreateFile a.access (fromUtf16Lossy units) 0 0 a.share FILE_OPEN a.options []
          finishFile req (io req)
  | _, _, _ => { ret := .status STATUS_INVALID_PARAMETER }

/-- The parameters of `NtCreateKey`. -/
structure CreateKeyArgs where
  keyHandle : Bool
  access : BitVec 32
  objectAttributes : Option ObjectAttributes
  titleIndex : BitVec 32
  cls : Option NtString
  options : BitVec 32
  outDisposition : Bool
deriving DecidableEq, Repr

/-- The class as units; `some none` if there is none, `none` for a fault. -/
def classUnits : Option NtString → Option (Option (List U16))
  | none => some none
  | some c => c.units.map some

/-- worker/src/windows/lockdown.rs:655-727 `hook_ntcreatekey`. -/
def hookNtCreateKey (a : CreateKeyArgs) (io : WinIPCRequest → WinIo) : Hooked :=
  match a.keyHandle, a.objectAttributes with
  | true, some oa =>
    let out (d : BitVec 32) : Option (BitVec 32) := if a.outDisposition then some d else none
    if oa.root ≠ 0 ∨ a.titleIndex ≠ 0 then
      { handle := some 0, disposition := out 0, ret := .status STATUS_NOT_SUPPORTED }
    else match oa.name with
      | none => { handle := some 0, disposition := out 0, ret := .status STATUS_INVALID_PARAMETER }
      | some name =>
        match name.units, classUnits a.cls with
        | some units, some cls =>
          let req := .ntCreateKey a.access (fromUtf16Lossy units) a.titleIndex (cls.map fromUtf16Lossy) a.options true
          match winSendRecv req (io req) with
          | some (.ntCreateKey d code, handle) =>
            { sent := some req, handle := some (handle.getD 0), disposition := out d, ret := .status code }
          | some (.syscallResult code, none) =>
            { sent := some req, handle := some 0, disposition := out 0, ret := .status code }
          | _ => { sent := some req, handle := some 0, disposition := out 0, ret := .abort }
        | _, _ => { handle := some 0, disposition := out 0, ret := .fault }
  | _, _ => { ret := .status STATUS_INVALID_PARAMETER }

/-- worker/src/windows/lockdown.rs:752-762: the handshake; `false` is a panic. -/
def winInitialize (io : WinIo) : Bool :=
  match winSendRecv .initialization io with
  | some (.initialization _, none) => true
  | _ => false

/-- The broker after it read what a worker wrote to the pipe. -/
def winAfter (debug : Bool) (p : Policy) (b : WinBroker) (os : WinChoice) (req : WinIPCRequest) : WinBroker :=
  match winWrap (encWinRequest req) none with
  | some data => b.step debug p (.message data, os)
  | none => b

/-- What a worker reads from the pipe when the broker went from `b` to `b'`: the message it wrote, if any; if it
wrote none it closed its end. -/
def winPiped (b b' : WinBroker) : WinIncoming :=
  match (b'.trace.drop b.trace.length).getLast? with
  | some (.sent resp handle) =>
    match winWrap (encWinResponse resp) (handle.map (·.1)) with
    | some data => .message data
    | none => .broken
  | _ => .broken

/-- The system, when at the other end of the pipe is the broker in state `b`. -/
def winBrokered (debug : Bool) (p : Policy) (b : WinBroker) (os : WinChoice) (req : WinIPCRequest) : WinIo :=
  ⟨true, winPiped b (winAfter debug p b os req)⟩

end Iris
