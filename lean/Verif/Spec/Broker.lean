import Verif.Model.Broker
/-!
# What serving a worker is supposed to mean

In terms of messages, files and replies; no descriptor tables, no encodings.
-/
namespace Iris.Spec

/-- An acceptable message, or anything else (end of stream, errors, malformed,
too long, or with a descriptor attached). -/
inductive Event
  | request (r : IPCRequest)
  | hangup
deriving DecidableEq

def classify : Incoming → Event
  | .datagram ⟨data, []⟩ =>
    if data.length ≤ 65536 then
      match recvRequest data with
      | some r => .request r
      | none => .hangup
    else .hangup
  | _ => .hangup

/-- The policy grants this open. -/
def Grants [Target] (p : Policy) (path : Str) (flags : BitVec 32) : Prop :=
  (p.evaluate (.fileOpen path flags)).1 = .granted

instance [Target] (p : Policy) (path : Str) (flags : BitVec 32) : Decidable (Grants p path flags) :=
  inferInstanceAs (Decidable (_ = _))

/-- The code of the reply, and the file that comes with it. -/
def answer [Target] (p : Policy) (os : OsChoice) : IPCRequest → BitVec 64 × Option Nat
  | .openFile path flags =>
    if Grants p path flags then
      match os.openResult with
      | .ok file => (0#64, some file)
      | .error errno => (-(BitVec.ofNat 64 errno), none)
    else (-13#64, none)
  | .syscall _ _ _ => (-38#64, none)
  | .initialization => (-22#64, none)

/-- The file the broker is to open for a request. -/
def toOpen [Target] (p : Policy) : IPCRequest → Option (Str × BitVec 32)
  | .openFile path flags => if Grants p path flags then some (path, flags) else none
  | _ => none

/-- The `open` calls in a trace. -/
def opens (tr : List Action) : List (Str × BitVec 32) :=
  tr.filterMap fun
    | .opened path flags _ => some (path, flags)
    | _ => none

/-- The replies in a trace: code and first attached file. -/
def replies (tr : List Action) : List (BitVec 64 × Option Nat) :=
  tr.filterMap fun
    | .sent (.syscallResult code) files => some (code, files.head?)
    | _ => none

/-- The request can make the loop panic. -/
def Crashes [Target] (p : Policy) : IPCRequest → Prop
  | .openFile path flags => Grants p path flags ∧ '\x00' ∈ path
  | _ => False

instance [Target] (p : Policy) (r : IPCRequest) : Decidable (Crashes p r) := by
  cases r <;> simp only [Crashes] <;> infer_instance

/-- What must end a session. -/
inductive Hostile : Incoming → Prop
  | eof : Hostile .eof
  | error (errno : Nat) : Hostile (.error errno)
  /-- at least one descriptor is attached -/
  | attached (data : Bytes) (f : Nat) (fs : List Nat) : Hostile (.datagram ⟨data, f :: fs⟩)
  | malformed (data : Bytes) (files : List Nat) (h : recvRequest data = none) :
    Hostile (.datagram ⟨data, files⟩)
  | tooLong (data : Bytes) (files : List Nat) (h : 64 * 1024 < data.length) :
    Hostile (.datagram ⟨data, files⟩)

end Iris.Spec
