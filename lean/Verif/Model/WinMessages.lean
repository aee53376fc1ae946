import Verif.Model.WinPolicy
/-!
# Messages between a Windows worker and its broker

Models ipc-messages/src/windows/mod.rs. The derived serde implementations write the variant index as a
`u32` varint, then the fields in order.
-/
namespace Iris

/-- ipc-messages/src/windows/mod.rs:8-33 `IPCRequest`. `ACCESS_MASK` and `ULONG` are `u32`, `LONGLONG`
is `i64`. -/
inductive WinIPCRequest
  | initialization
  | ntCreateFile (access : BitVec 32) (path : Str) (allocation : BitVec 64)
      (attributes share disposition options : BitVec 32) (ea : Bytes)
  | ntCreateKey (access : BitVec 32) (path : Str) (titleIndex : BitVec 32) (cls : Option Str)
      (options : BitVec 32) (create : Bool)
deriving DecidableEq, Repr

/-- ipc-messages/src/windows/mod.rs:35-49 `IPCResponse`. `NTSTATUS` is `i32`, `ULONG_PTR` is `usize`. -/
inductive WinIPCResponse
  | initialization (policyApplied : Policy)
  | ntCreateFile (ioStatus : BitVec 64) (code : BitVec 32)
  | ntCreateKey (disposition code : BitVec 32)
  | syscallResult (code : BitVec 32)
deriving DecidableEq

/-- ipc-messages/src/windows/mod.rs:8 derived `Serialize`. -/
def encWinRequest : WinIPCRequest → Bytes
  | .initialization => encVarint 0
  | .ntCreateFile access path allocation attributes share disposition options ea =>
    encVarint 1 ++ encB32 access ++ encStr path ++ encI64 allocation ++ encB32 attributes ++ encB32 share
      ++ encB32 disposition ++ encB32 options ++ encBytes ea
  | .ntCreateKey access path titleIndex cls options create =>
    encVarint 2 ++ encB32 access ++ encStr path ++ encB32 titleIndex ++ encOption encStr cls
      ++ encB32 options ++ encBool create

/-- ipc-messages/src/windows/mod.rs:8 derived `Deserialize`; an unknown variant index is an error. -/
def decWinRequest : Parser WinIPCRequest := fun bs => do
  let (tag, bs) ← decU32 bs
  match tag with
  | 0 => return (.initialization, bs)
  | 1 =>
    let (access, bs) ← decB32 bs
    let (path, bs) ← decStr bs
    let (allocation, bs) ← decI64 bs
    let (attributes, bs) ← decB32 bs
    let (share, bs) ← decB32 bs
    let (disposition, bs) ← decB32 bs
    let (options, bs) ← decB32 bs
    let (ea, bs) ← decBytes bs
    return (.ntCreateFile access path allocation attributes share disposition options ea, bs)
  | 2 =>
    let (access, bs) ← decB32 bs
    let (path, bs) ← decStr bs
    let (titleIndex, bs) ← decB32 bs
    let (cls, bs) ← decOption decStr bs
    let (options, bs) ← decB32 bs
    let (create, bs) ← decBool bs
    return (.ntCreateKey access path titleIndex cls options create, bs)
  | _ => none

/-- ipc-messages/src/windows/mod.rs:35 derived `Serialize`. -/
def encWinResponse : WinIPCResponse → Bytes
  | .initialization p => encVarint 0 ++ encPolicy p
  | .ntCreateFile ioStatus code => encVarint 1 ++ encB64 ioStatus ++ encI32 code
  | .ntCreateKey disposition code => encVarint 2 ++ encB32 disposition ++ encI32 code
  | .syscallResult code => encVarint 3 ++ encI32 code

/-- ipc-messages/src/windows/mod.rs:35 derived `Deserialize`. -/
def decWinResponse : Parser WinIPCResponse := fun bs => do
  let (tag, bs) ← decU32 bs
  match tag with
  | 0 =>
    let (p, bs) ← decPolicy bs
    return (.initialization p, bs)
  | 1 =>
    let (ioStatus, bs) ← decB64 bs
    let (code, bs) ← decI32 bs
    return (.ntCreateFile ioStatus code, bs)
  | 2 =>
    let (disposition, bs) ← decB32 bs
    let (code, bs) ← decI32 bs
    return (.ntCreateKey disposition code, bs)
  | 3 =>
    let (code, bs) ← decI32 bs
    return (.syscallResult code, bs)
  | _ => none

/-- ipc/src/windows/channel.rs:190-191: a message is sent with the value of a handle, if any. `enc` is
the message alone. -/
def winWrap (enc : Bytes) (handle : Option (BitVec 64)) : Option Bytes :=
  serialize IPC_MESSAGE_MAX_SIZE (enc ++ encOption encB64 handle)

/-- ipc/src/windows/channel.rs:235: the type decoded is `(T, Option<u64>)`. -/
def winUnwrap {α : Type} (dec : Parser α) (bs : Bytes) : Option (α × Option (BitVec 64)) :=
  deserialize (fun bs => do
    let (m, bs) ← dec bs
    let (h, bs) ← decOption decB64 bs
    return ((m, h), bs)) bs

end Iris
