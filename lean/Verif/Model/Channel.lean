import Verif.Model.Handle
/-!
# The Linux channel

Models ipc/src/linux/channel.rs and ipc/src/error.rs:13-66.
-/
namespace Iris

/-- ipc/src/error.rs:13-48 `IpcError`, the variants reachable on Linux. -/
inductive IpcError
  | payloadTooBigToTransmit (truncated : Bytes)
  | internalSerializationError (description : Str)
  | internalDeserializationError (payload : Bytes)
  | internalOsOperationFailed (description : Str) (osCode : Nat)
  | invalidHandleValueReceived (raw : BitVec 64)
deriving DecidableEq, Repr

/-- ipc/src/linux/channel.rs:10 `CMSG_SIZE`. -/
def CMSG_SIZE (abi : Abi) : Nat := abi.cmsgSpace 4

/-- ipc/src/linux/channel.rs:64 and 79-102: the control buffer, zero filled, then
`cmsg_level`, `cmsg_type`, `cmsg_len` (set to `CMSG_SIZE`, line 82) and the
descriptor. -/
def buildControl (abi : Abi) (fd : Nat) : Bytes :=
  let written := leBytes abi.word (CMSG_SIZE abi) ++ leBytes 4 SOL_SOCKET ++ leBytes 4 SCM_RIGHTS
    ++ leBytes 4 fd
  written ++ List.replicate (CMSG_SIZE abi - written.length) 0

/-- ipc/src/linux/channel.rs:52-117 `send`. `encoded` is the message after
`serialize`; `sendError` is any failure of `sendmsg` the kernel may decide on. -/
def channelSend (abi : Abi) (t : FdTable) (encoded : Option Bytes) (handle : Option Nat)
    (sendError : Option Nat) : Except IpcError Datagram :=
  match encoded with
  | none => .error (.internalSerializationError c!"message too long")
  | some data =>
    let control := match handle with
      | some fd => buildControl abi fd
      | none => []
    match sendError with
    | some e => .error (.internalOsOperationFailed c!"sendmsg() failed" e)
    | none =>
      match sysSendmsg abi t data control with
      | .ok d => .ok d
      | .error e => .error (.internalOsOperationFailed c!"sendmsg() failed" e)

/-- What waits at a receiving end. -/
inductive Incoming
  | datagram (d : Datagram)
  | eof
  | error (errno : Nat)
deriving DecidableEq, Repr

/-- Dropping an optional handle closes it (ipc/src/linux/handle.rs:78-90). -/
def dropHandle (t : FdTable) : Option Nat → FdTable
  | some fd => t.erase fd
  | none => t

/-- ipc/src/linux/channel.rs:157-198: the loop over control messages. The state is
the table and the variable `handle`; overwriting the variable drops its old
value. Only the first descriptor of a control message is read (line 180-185).
The descriptors come from the kernel, they are never negative, so line 193 is
not reachable. -/
def recvCmsgs (t : FdTable) (handle : Except IpcError (Option Nat)) :
    List Cmsg → FdTable × Except IpcError (Option Nat)
  | [] => (t, handle)
  | c :: cs =>
    let (t, handle) :=
      if (c.level, c.ctype) ≠ (SOL_SOCKET, SCM_RIGHTS) then
        (match handle with
          | .ok h => dropHandle t h
          | .error _ => t,
         .error (.internalOsOperationFailed
          c!"recvmsg() returned unknown ancillary data level or type" 0))
      else (t, handle)
    match c.fds.head? with
    | none => recvCmsgs t handle cs
    | some fd =>
      match handle with
      | .ok old => recvCmsgs (dropHandle t old) (.ok (some fd)) cs
      | .error e => recvCmsgs (t.erase fd) (.error e) cs

/-- ipc/src/linux/channel.rs:157-211: what `recv` makes of the result of
`recvmsg`. -/
def recvFinish {α : Type} (dec : Parser α) (t : FdTable) (r : RecvMsg) :
    FdTable × Except IpcError (Option (α × Option Nat)) :=
  match recvCmsgs t (.ok none) r.cmsgs with
  | (t, .error e) => (t, .error e)
  | (t, .ok handle) =>
    if r.ctrunc || r.trunc then (dropHandle t handle, .error (.payloadTooBigToTransmit r.bytes))
    else if r.bytes.length = 0 then (dropHandle t handle, .ok none)
    else match deserialize dec r.bytes with
      | none => (dropHandle t handle, .error (.internalDeserializationError r.bytes))
      | some m => (t, .ok (some (m, handle)))

/-- ipc/src/linux/channel.rs:119-212 `recv` with a buffer of `cap` bytes. -/
def channelRecv {α : Type} (abi : Abi) (dec : Parser α) (cap canInstall : Nat) (t : FdTable) :
    Incoming → FdTable × Except IpcError (Option (α × Option Nat))
  | .error e => (t, .error (.internalOsOperationFailed c!"recvmsg() failed" e))
  | .eof => recvFinish dec t ⟨[], [], false, false⟩
  | .datagram d =>
    let (t, r) := sysRecvmsg abi canInstall t cap (CMSG_SIZE abi) d
    recvFinish dec t r

end Iris
