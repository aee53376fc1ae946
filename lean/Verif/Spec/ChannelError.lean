import Verif.Model.Channel
/-!
# What can prevent a message from being sent or received on Linux

One case per reason; the descriptions are the ones a user reads in the log.
-/
namespace Iris.Spec

/-- Why a message is not sent. `encoded` is its encoding, if it is short enough to have one; `refuses` is the code of a
system which refuses it. -/
inductive NotSent (abi : Abi) (t : FdTable) (encoded : Option Bytes) (handle : Option Nat) (refuses : Option Nat) :
    IpcError → Prop
  /-- the message is too long -/
  | tooLong {d : Str} (h : encoded = none) (hd : d = c!"message too long") :
    NotSent abi t encoded handle refuses (.internalSerializationError d)
  /-- the system refuses it -/
  | refused {code : Nat} (he : encoded ≠ none) (h : refuses = some code) :
    NotSent abi t encoded handle refuses (.internalOsOperationFailed c!"sendmsg() failed" code)
  /-- the handle is not open (EBADF) -/
  | closed {fd : Nat} (he : encoded ≠ none) (hr : refuses = none) (h : handle = some fd) (hc : t.get fd = none) :
    NotSent abi t encoded handle refuses (.internalOsOperationFailed c!"sendmsg() failed" 9)
  /-- on x86_64, a handle is sent and there is no standard input (EBADF): see C25 -/
  | noStdin {fd : Nat} (he : encoded ≠ none) (hr : refuses = none) (h : handle = some fd) (ha : abi = .lp64)
      (hc : t.get 0 = none) :
    NotSent abi t encoded handle refuses (.internalOsOperationFailed c!"sendmsg() failed" 9)

/-- The number of files which can be received with one message. -/
def roomFor (abi : Abi) (canOpen : Nat) : Nat :=
  min canOpen (match abi with | .lp64 => 2 | .ilp32 => 1)

/-- Why a message is not received, with a buffer of `cap` bytes, by a process which can open `canOpen` more files. -/
inductive NotReceived {α : Type} (abi : Abi) (dec : Parser α) (cap canOpen : Nat) (i : Incoming) : IpcError → Prop
  /-- the system refuses -/
  | refused {code : Nat} (h : i = .error code) :
    NotReceived abi dec cap canOpen i (.internalOsOperationFailed c!"recvmsg() failed" code)
  /-- the message, or its files, do not fit; the error has what did fit -/
  | cut {data : Bytes} {files : List Nat} (h : i = .datagram ⟨data, files⟩)
      (hc : cap < data.length ∨ roomFor abi canOpen < files.length) :
    NotReceived abi dec cap canOpen i (.payloadTooBigToTransmit (data.take cap))
  /-- everything fits, but it is not a message; the error has all of it -/
  | garbled {data : Bytes} {files : List Nat} (h : i = .datagram ⟨data, files⟩) (hl : data.length ≤ cap)
      (hr : files.length ≤ roomFor abi canOpen) (hd : data ≠ []) (hg : deserialize dec data = none) :
    NotReceived abi dec cap canOpen i (.internalDeserializationError data)

end Iris.Spec
