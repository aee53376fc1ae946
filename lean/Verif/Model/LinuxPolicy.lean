import Verif.Model.Policy
/-!
# Linux policy decisions

Models policy/src/linux/path.rs and policy/src/linux/policy.rs.
-/
namespace Iris

/-- The build targets the code supports on Linux. `O_LARGEFILE` is the only
flag used by the policy whose value differs between them in the `libc` crate
(0 on x86_64-gnu, 0x8000 on i686-gnu). -/
class Target where
  oLargefile : BitVec 32

/-- x86_64-unknown-linux-gnu. -/
@[reducible] def x86_64 : Target := ⟨0#32⟩
/-- i686-unknown-linux-gnu. -/
@[reducible] def i686 : Target := ⟨0x8000#32⟩

/-! Flag values (libc crate, x86 Linux), used at policy/src/linux/policy.rs:3-6. -/
def O_RDONLY : BitVec 32 := 0x0#32
def O_WRONLY : BitVec 32 := 0x1#32
def O_RDWR : BitVec 32 := 0x2#32
def O_CREAT : BitVec 32 := 0x40#32
def O_EXCL : BitVec 32 := 0x80#32
def O_TRUNC : BitVec 32 := 0x200#32
def O_APPEND : BitVec 32 := 0x400#32
def O_DIRECTORY : BitVec 32 := 0x10000#32
def O_NOFOLLOW : BitVec 32 := 0x20000#32
def O_CLOEXEC : BitVec 32 := 0x80000#32
def O_PATH : BitVec 32 := 0x200000#32

/-- policy/src/linux/policy.rs:8-18 `SUPPORTED_FILE_OPEN_FLAGS`. -/
def SUPPORTED_FILE_OPEN_FLAGS [T : Target] : BitVec 32 :=
  O_RDONLY ||| O_WRONLY ||| O_RDWR ||| O_TRUNC ||| O_CREAT ||| O_EXCL ||| O_DIRECTORY
    ||| O_APPEND ||| O_PATH ||| O_CLOEXEC ||| T.oLargefile

/-- `[i64; 6]`. -/
structure Args6 where
  a0 : BitVec 64
  a1 : BitVec 64
  a2 : BitVec 64
  a3 : BitVec 64
  a4 : BitVec 64
  a5 : BitVec 64
deriving DecidableEq, Repr

/-- policy/src/linux/policy.rs:21-24 `PolicyRequest`. -/
inductive Request
  | fileOpen (path : Str) (flags : BitVec 32)
  | syscall (nb : BitVec 64) (args : Args6) (ip : BitVec 64)
deriving DecidableEq, Repr

/-- policy/src/linux/path.rs:5-19 `path_is_sane`. -/
def pathIsSane (path : Str) : Bool :=
  match stripPrefix '/' path with
  | none => false
  | some rest =>
    (split '/' ((stripSuffix '/' rest).getD rest)).all fun component =>
      !component.isEmpty && !(component == c!"." || component == c!"..")

/-- policy/src/linux/path.rs:3 and 21-33 `OS_PATH_SEPARATOR`,
`derive_all_file_paths_from_path`. -/
def linuxOs : PathOs where
  sep := '/'
  derive path :=
    if !startsWith '/' path then .error (.unsupportedFilesystemPath path)
    else .ok [path]

/-- policy/src/linux/policy.rs:56-62: the flag word the decision is based on
(a local variable of `check_file_open`; the broker opens with the original). -/
def effFlags (flags : BitVec 32) : BitVec 32 :=
  (if (flags &&& O_PATH) ≠ 0#32 then flags &&& (O_PATH ||| O_DIRECTORY ||| O_NOFOLLOW)
    else flags) ||| O_CLOEXEC

/-- policy/src/linux/policy.rs:41-96 `check_file_open`. -/
def Policy.checkFileOpen [Target] (p : Policy) (path : Str) (flags : BitVec 32) : Verdict :=
  if (flags &&& ~~~SUPPORTED_FILE_OPEN_FLAGS) ≠ 0#32 then
    .delegationNotSupported
      (c!"open flag " ++ hexAlt (flags &&& ~~~SUPPORTED_FILE_OPEN_FLAGS).toNat ++ c!" not supported")
  else if !pathIsSane path then
    .invalidRequestParameters c!"path"
      (c!"path to open \"" ++ path ++ c!"\" is not in canonical form")
  else
    let flags := effFlags flags
    let requestsRead := (flags &&& (O_WRONLY ||| O_PATH)) == 0#32
    let requestsWrite :=
      (flags &&& (O_WRONLY ||| O_RDWR ||| O_TRUNC ||| O_CREAT ||| O_EXCL ||| O_APPEND)) != 0#32
        && (flags &&& O_PATH) == 0#32
    let a := p.allowedAccess '/' path
    let canRead := a.read
    let canWrite := a.write
    if !(canRead || canWrite) || (requestsRead && !canRead) || (requestsWrite && !canWrite) then
      .deniedByPolicy (c!"requests "
        ++ (if requestsRead && requestsWrite then c!"read-write"
            else if requestsRead then c!"read-only"
            else if requestsWrite then c!"write-only"
            else c!"read or write")
        ++ c!" access, but "
        ++ (if canRead then c!"can only read"
            else if canWrite then c!"can only write"
            else c!"has no access to that path"))
    else .granted

/-- One call of a log callback: which callback, with what
(policy/src/policy.rs:262-264). -/
structure Notification (Req : Type) where
  callback : Nat
  request : Req
  verdict : Verdict
deriving DecidableEq, Repr

/-- policy/src/policy.rs:238-265 `log_verdict`, the callbacks. The `info!`/`warn!`
lines it begins with are in Model/LogText.lean. -/
def Policy.logVerdict {Req : Type} (p : Policy) (req : Req) (v : Verdict) :
    List (Notification Req) :=
  p.callbacks.map fun cb => ⟨cb, req, v⟩

/-- policy/src/linux/policy.rs:27-39 `evaluate_request`: the returned verdict and
the callbacks invoked, in order. -/
def Policy.evaluate [Target] (p : Policy) (req : Request) : Verdict × List (Notification Request) :=
  let res := match req with
    | .fileOpen path flags => p.checkFileOpen path flags
    | .syscall _ _ _ => .delegationNotSupported c!"unsupported system call"
  let log := p.logVerdict req res
  let res := if p.auditOnly then .granted else res
  (res, log)

/-- The public functions that extend a policy on Linux. -/
inductive Call
  | fs (c : FsCall)
  | addLogCallback (cb : Nat)
  | inheritHandle (raw : Nat) (isInheritable : Except PolicyError Bool)

/-- One call on a policy: result and new state (policy/src/policy.rs:71-190). -/
def Policy.call (p : Policy) : Call → Except PolicyError Unit × Policy
  | .fs c => p.fsCall linuxOs c
  | .addLogCallback cb => (.ok (), p.addLogCallback cb)
  | .inheritHandle raw q => p.allowInheritHandle raw q

/-- A history of calls, failed ones included. -/
def Policy.calls (p : Policy) (h : List Call) : Policy := h.foldl (fun p c => (p.call c).2) p

end Iris
