import Verif.Model.Postcard
import Verif.Model.LinuxPolicy
/-!
# Messages between a Linux worker and its broker

Models ipc-messages/src/linux/mod.rs. The derived serde implementations write
the variant index as a `u32` varint, then the fields in order.
-/
namespace Iris

/-- ipc-messages/src/linux/mod.rs:12-21 `IPCRequest`. -/
inductive IPCRequest
  | initialization
  | openFile (path : Str) (flags : BitVec 32)
  | syscall (nb : BitVec 64) (args : Args6) (ip : BitVec 64)
deriving DecidableEq, Repr

/-- ipc-messages/src/linux/mod.rs:23-30 `IPCResponse`. -/
inductive IPCResponse
  | initialization (policyApplied : Policy) (filter : Bytes)
  | syscallResult (code : BitVec 64)
deriving DecidableEq

/-- `[i64; 6]`: the elements only. -/
def encArgs (a : Args6) : Bytes :=
  encI64 a.a0 ++ encI64 a.a1 ++ encI64 a.a2 ++ encI64 a.a3 ++ encI64 a.a4 ++ encI64 a.a5
def decArgs : Parser Args6 := fun bs => do
  let (x0, bs) ← decI64 bs
  let (x1, bs) ← decI64 bs
  let (x2, bs) ← decI64 bs
  let (x3, bs) ← decI64 bs
  let (x4, bs) ← decI64 bs
  let (x5, bs) ← decI64 bs
  return (⟨x0, x1, x2, x3, x4, x5⟩, bs)

/-- ipc-messages/src/linux/mod.rs:12 derived `Serialize`. -/
def encRequest : IPCRequest → Bytes
  | .initialization => encVarint 0
  | .openFile path flags => encVarint 1 ++ encStr path ++ encI32 flags
  | .syscall nb args ip => encVarint 2 ++ encI64 nb ++ encArgs args ++ encI64 ip

/-- ipc-messages/src/linux/mod.rs:12 derived `Deserialize`; an unknown variant
index is an error. -/
def decRequest : Parser IPCRequest := fun bs => do
  let (tag, bs) ← decU32 bs
  match tag with
  | 0 => return (.initialization, bs)
  | 1 =>
    let (path, bs) ← decStr bs
    let (flags, bs) ← decI32 bs
    return (.openFile path flags, bs)
  | 2 =>
    let (nb, bs) ← decI64 bs
    let (args, bs) ← decArgs bs
    let (ip, bs) ← decI64 bs
    return (.syscall nb args ip, bs)
  | _ => none

/-- ipc-messages/src/linux/mod.rs:23 derived `Serialize`. -/
def encResponse : IPCResponse → Bytes
  | .initialization p filter => encVarint 0 ++ encPolicy p ++ encBytes filter
  | .syscallResult code => encVarint 1 ++ encI64 code

/-- ipc-messages/src/linux/mod.rs:23 derived `Deserialize`. -/
def decResponse : Parser IPCResponse := fun bs => do
  let (tag, bs) ← decU32 bs
  match tag with
  | 0 =>
    let (p, bs) ← decPolicy bs
    let (filter, bs) ← decBytes bs
    return (.initialization p filter, bs)
  | 1 =>
    let (code, bs) ← decI64 bs
    return (.syscallResult code, bs)
  | _ => none

/-- `channel.send` of a request: ipc/src/linux/channel.rs:58 with the caller's
64 KiB buffer. -/
def sendRequest (m : IPCRequest) : Option Bytes := serialize IPC_MESSAGE_MAX_SIZE (encRequest m)
/-- `channel.recv::<IPCRequest>`: ipc/src/linux/channel.rs:203. -/
def recvRequest (bs : Bytes) : Option IPCRequest := deserialize decRequest bs
/-- `channel.send` of a reply. -/
def sendResponse (m : IPCResponse) : Option Bytes := serialize IPC_MESSAGE_MAX_SIZE (encResponse m)
/-- `channel.recv::<IPCResponse>`. -/
def recvResponse (bs : Bytes) : Option IPCResponse := deserialize decResponse bs

end Iris
