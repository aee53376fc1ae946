import Verif.Model.WinStd
import Verif.Model.Postcard
import Verif.Model.LinuxPolicy
/-!
# Windows policy decisions

Models policy/src/windows/path.rs and policy/src/windows/policy.rs.
-/
namespace Iris

/-- What the operating system answers while rules are added: `GetFullPathNameW` called with a size of 0
(the size needed, 0 on failure) and with a buffer of the given size (the result, and what it
wrote), and the SID of the current user. -/
structure WinOs where
  fullPathSize : List U16 → Nat
  fullPathFill : List U16 → Nat → Nat × List U16
  sid : Str

/-- policy/src/windows/path.rs:15 `OS_PATH_SEPARATOR`. -/
def winSep : Char := '\\'

/-- policy/src/windows/path.rs:17-23 `path_is_sane`. -/
def winPathIsSane (path : Str) : Bool := startsWith '\\' path

/-- policy/src/windows/path.rs:26-57: the absolute path. The buffer has `str_len` units, zero at first. -/
def WinOs.absolute (os : WinOs) (path : Str) : Str :=
  let relative := utf16 path ++ [0]
  let strLen := os.fullPathSize relative
  if strLen = 0 then path
  else
    let (res, written) := os.fullPathFill relative strLen
    let buf := (written ++ List.replicate strLen 0).take strLen
    if res = 0 ∨ res > strLen then path
    else match fromUtf16 (buf.take (strLen - 1)) with
      | some s => s
      | none => path

/-- policy/src/windows/path.rs:60 `absolute.get(1..3) == Some(":\\")`: the range is in bytes, so the first
character takes one byte. -/
def isDriveAbsolute : Str → Bool
  | c :: ':' :: '\\' :: _ => c.toNat < 128
  | _ => false

/-- policy/src/windows/path.rs:25-65 `derive_all_file_paths_from_path`. -/
def winPathOs (os : WinOs) : PathOs where
  sep := winSep
  derive path :=
    let absolute := os.absolute path
    .ok (if isDriveAbsolute absolute then [c!"\\??\\" ++ absolute] else [])

/-- policy/src/windows/path.rs:67-91 `derive_all_reg_key_paths_from_path`. The result of
`get_current_user_sid` is `os.sid` here; the function itself is in WinUser.lean. -/
def deriveRegKey (os : WinOs) (path : Str) : Except PolicyError (List Str) :=
  match stripPrefixStr c!"HKEY_CURRENT_USER" path with
  | some rest => .ok [c!"\\REGISTRY\\USER\\" ++ os.sid ++ rest]
  | none =>
  match stripPrefixStr c!"HKEY_USERS" path with
  | some rest => .ok [c!"\\REGISTRY\\USER" ++ rest]
  | none =>
  match stripPrefixStr c!"HKEY_LOCAL_MACHINE" path with
  | some rest => .ok [c!"\\REGISTRY\\MACHINE" ++ rest]
  | none =>
  match stripPrefixStr c!"HKEY_CLASSES_ROOT" path with
  | some rest => .ok [c!"\\REGISTRY\\MACHINE\\SOFTWARE\\Classes" ++ rest]
  | none =>
  match stripPrefixStr c!"HKEY_CURRENT_CONFIG" path with
  | some rest => .ok [c!"\\REGISTRY\\MACHINE\\SYSTEM\\CurrentControlSet\\Hardware Profiles\\Current" ++ rest]
  | none => .error (.unsupportedRegistryPath path)

/-! ## Rights -/

/-- policy/src/windows/policy.rs:19. -/
def FILE_ALWAYS_GRANTED_RIGHTS : BitVec 32 := READ_CONTROL ||| SYNCHRONIZE

/-- policy/src/windows/policy.rs:20-21. -/
def FILE_READ_RIGHTS : BitVec 32 :=
  GENERIC_READ ||| GENERIC_ALL ||| FILE_READ_DATA ||| FILE_READ_ATTRIBUTES ||| FILE_READ_EA

/-- policy/src/windows/policy.rs:22-30. -/
def FILE_WRITE_RIGHTS : BitVec 32 :=
  GENERIC_WRITE ||| GENERIC_ALL ||| FILE_WRITE_DATA ||| FILE_APPEND_DATA ||| FILE_WRITE_EA
    ||| FILE_WRITE_ATTRIBUTES ||| DELETE ||| WRITE_DAC ||| WRITE_OWNER

/-- policy/src/windows/policy.rs:32-33. -/
def KEY_ALWAYS_GRANTED_RIGHTS : BitVec 32 :=
  READ_CONTROL ||| SYNCHRONIZE ||| KEY_NOTIFY ||| KEY_WOW64_32KEY ||| KEY_WOW64_64KEY

/-- policy/src/windows/policy.rs:34. -/
def KEY_READ_RIGHTS : BitVec 32 := KEY_ENUMERATE_SUB_KEYS ||| KEY_QUERY_VALUE ||| KEY_ALWAYS_GRANTED_RIGHTS

/-- policy/src/windows/policy.rs:35-40. -/
def KEY_WRITE_RIGHTS : BitVec 32 :=
  KEY_CREATE_SUB_KEY ||| KEY_SET_VALUE ||| DELETE ||| WRITE_DAC ||| WRITE_OWNER ||| KEY_ALWAYS_GRANTED_RIGHTS

/-- policy/src/windows/policy.rs:43. -/
def FILE_DELETE_ON_CLOSE : BitVec 32 := 0x00001000
/-- policy/src/windows/policy.rs:44. -/
def FILE_SUPERSEDE : BitVec 32 := 0x00000000
/-- policy/src/windows/policy.rs:45. -/
def FILE_OPEN : BitVec 32 := 0x00000001
/-- policy/src/windows/policy.rs:46. -/
def FILE_CREATE : BitVec 32 := 0x00000002
/-- policy/src/windows/policy.rs:47. -/
def FILE_OPEN_IF : BitVec 32 := 0x00000003
/-- policy/src/windows/policy.rs:48. -/
def FILE_OVERWRITE : BitVec 32 := 0x00000004
/-- policy/src/windows/policy.rs:49. -/
def FILE_OVERWRITE_IF : BitVec 32 := 0x00000005

/-- policy/src/windows/policy.rs:51-58. -/
def SUPPORTED_FILE_CREATE_DISPOSITIONS : List (BitVec 32) :=
  [FILE_SUPERSEDE, FILE_CREATE, FILE_OPEN, FILE_OPEN_IF, FILE_OVERWRITE, FILE_OVERWRITE_IF]

/-- policy/src/windows/policy.rs:59-66. -/
def SUPPORTED_FILE_ATTRIBUTES : BitVec 32 :=
  FILE_ATTRIBUTE_NORMAL ||| FILE_FLAG_BACKUP_SEMANTICS ||| FILE_FLAG_DELETE_ON_CLOSE
    ||| FILE_FLAG_NO_BUFFERING ||| FILE_FLAG_OPEN_NO_RECALL ||| FILE_FLAG_RANDOM_ACCESS
    ||| FILE_FLAG_SEQUENTIAL_SCAN ||| FILE_FLAG_WRITE_THROUGH

/-- policy/src/windows/policy.rs:68-85 `PolicyRequest`. -/
inductive WinRequest
  | fileOpen (path : Str) (access attributes share disposition options : BitVec 32) (ea : Bytes)
  | regKeyOpen (path : Str) (access options : BitVec 32) (create : Bool)
deriving DecidableEq, Repr

/-- `str::contains(".pdb")`. -/
def containsPdb : Str → Bool
  | [] => false
  | c :: cs => (stripPrefixStr c!".pdb" (c :: cs)).isSome || containsPdb cs

/-- policy/src/windows/policy.rs:216-240: the text of a refusal about locks. -/
def lockWhy (rr rw rd cr cw cd : Bool) : Str :=
  c!"requests to block other"
    ++ (if rr then c!" readers" else []) ++ (if rw then c!" writers" else []) ++ (if rd then c!" deleters" else [])
    ++ c!" but "
    ++ (if cr || cw || cd then
          c!"can only block" ++ (if cr then c!" readers" else []) ++ (if cw then c!" writers" else [])
            ++ (if cd then c!" deleters" else [])
        else c!"has no lock right")

/-- policy/src/windows/policy.rs:194-202 and 325-333: what a refused request asked for. -/
def accessAsked (rr rw : Bool) (both : Str) : Str :=
  if rr && rw then both else if rr then c!"read-only" else if rw then c!"write-only" else c!"read or write"

/-- policy/src/windows/policy.rs:203-209 and 334-340: what the policy gives. -/
def accessHeld (cr cw : Bool) : Str :=
  if cr then c!"can only read" else if cw then c!"can only write" else c!"has no access to that path"

/-- policy/src/windows/policy.rs:121-245 `check_file_open`. `debug` is `cfg!(debug_assertions)`. -/
def Policy.winCheckFileOpen (debug : Bool) (p : Policy) (path : Str)
    (access attributes share disposition options : BitVec 32) (ea : Bytes) : Verdict :=
  if debug && containsPdb path then .granted
  else if access &&& ~~~(FILE_ALWAYS_GRANTED_RIGHTS ||| FILE_READ_RIGHTS ||| FILE_WRITE_RIGHTS) ≠ 0#32 then
    .delegationNotSupported (c!"access right "
      ++ hexAlt (access &&& ~~~(FILE_ALWAYS_GRANTED_RIGHTS ||| FILE_READ_RIGHTS ||| FILE_WRITE_RIGHTS)).toNat
      ++ c!" not supported")
  else if attributes &&& ~~~SUPPORTED_FILE_ATTRIBUTES ≠ 0#32 then
    .delegationNotSupported (c!"file attribute " ++ hexAlt (attributes &&& ~~~SUPPORTED_FILE_ATTRIBUTES).toNat
      ++ c!" not supported")
  else if options &&& FILE_FLAG_OPEN_REPARSE_POINT = 0#32 then
    .delegationNotSupported c!"opening files with reparse points enabled is not supported"
  else if !SUPPORTED_FILE_CREATE_DISPOSITIONS.contains disposition then
    .delegationNotSupported (c!"file creation disposition " ++ hexAlt disposition.toNat ++ c!" not supported")
  else if !winPathIsSane path then
    .invalidRequestParameters c!"path" (c!"path to open \"" ++ path ++ c!"\" is not in canonical form")
  else
    let requestsRead := access &&& FILE_READ_RIGHTS != 0#32 &&
      !([FILE_SUPERSEDE, FILE_CREATE, FILE_OVERWRITE, FILE_OVERWRITE_IF].contains disposition)
    let requestsWrite := access &&& FILE_WRITE_RIGHTS != 0#32 || disposition != FILE_OPEN
      || options &&& FILE_DELETE_ON_CLOSE != 0#32 || !ea.isEmpty
    let blockR := share &&& FILE_SHARE_READ == 0#32
    let blockW := share &&& FILE_SHARE_WRITE == 0#32
    let blockD := share &&& FILE_SHARE_DELETE == 0#32
    let a := p.allowedAccess winSep path
    if !(a.read || a.write || a.blockR || a.blockW || a.blockD) then
      .deniedByPolicy c!"has no access to that path"
    else if (requestsRead && !a.read) || (requestsWrite && !a.write) then
      .deniedByPolicy (c!"requests " ++ accessAsked requestsRead requestsWrite c!"read and write"
        ++ c!", but " ++ accessHeld a.read a.write)
    else if (blockR && !a.blockR) || (blockW && !a.blockW) || (blockD && !a.blockD) then
      .deniedByPolicy (lockWhy blockR blockW blockD a.blockR a.blockW a.blockD)
    else .granted

/-- policy/src/windows/policy.rs:257-271, one iteration of the loop of `allow_regkey_access`. -/
def mergeRegKey (m : AMap (Bool × Bool)) (path : Str) (access : Bool × Bool) : AMap (Bool × Bool) :=
  let key := (stripSuffix winSep path).getD path
  let prev := (AMap.get m key).getD (false, false)
  AMap.insert m key (prev.1 || access.1, prev.2 || access.2)

/-- policy/src/windows/policy.rs:255-273 `allow_regkey_access`. -/
def Policy.allowRegKey (os : WinOs) (p : Policy) (path : Str) (access : Bool × Bool) :
    Except PolicyError Unit × Policy :=
  match deriveRegKey os path with
  | .error e => (.error e, p)
  | .ok paths => (.ok (), { p with regkeys := paths.foldl (fun m d => mergeRegKey m d access) p.regkeys })

/-- policy/src/windows/policy.rs:282-291, the `while` loop of `get_regkey_allowed_access`. -/
def regWalk (m : AMap (Bool × Bool)) (acc : Bool × Bool) (cur : Str) : Bool × Bool :=
  if acc.1 && acc.2 then acc
  else
    let acc := match AMap.get m cur with
      | some a => (acc.1 || a.1, acc.2 || a.2)
      | none => acc
    match _h : stripOneComponent cur winSep with
    | some parent => regWalk m acc parent
    | none => acc
termination_by cur.length
decreasing_by exact stripOneComponent_length _h

/-- policy/src/windows/policy.rs:275-293 `get_regkey_allowed_access`. -/
def Policy.regAllowedAccess (p : Policy) (path : Str) : Bool × Bool :=
  regWalk p.regkeys (false, false) ((stripSuffix winSep path).getD path)

/-- policy/src/windows/policy.rs:295-346 `check_reg_key_open`. -/
def Policy.winCheckRegKeyOpen (p : Policy) (path : Str) (access options : BitVec 32) (create : Bool) : Verdict :=
  if access &&& ~~~(KEY_READ_RIGHTS ||| KEY_WRITE_RIGHTS ||| KEY_ALWAYS_GRANTED_RIGHTS) ≠ 0#32 then
    .delegationNotSupported (c!"access right "
      ++ hexAlt (access &&& ~~~(KEY_READ_RIGHTS ||| KEY_WRITE_RIGHTS ||| KEY_ALWAYS_GRANTED_RIGHTS)).toNat
      ++ c!" not supported")
  else if options &&& ~~~(REG_OPTION_VOLATILE ||| REG_OPTION_NON_VOLATILE) ≠ 0#32 then
    .delegationNotSupported (c!"creation option "
      ++ hexAlt (options &&& ~~~(REG_OPTION_VOLATILE ||| REG_OPTION_NON_VOLATILE)).toNat ++ c!" not supported")
  else
    let requestsRead := access &&& KEY_READ_RIGHTS != 0#32
    let requestsWrite := access &&& KEY_WRITE_RIGHTS != 0#32 || create
    let a := p.regAllowedAccess path
    if !(a.1 || a.2) || (requestsRead && !a.1) || (requestsWrite && !a.2) then
      .deniedByPolicy (c!"requests " ++ accessAsked requestsRead requestsWrite c!"read-write"
        ++ c!" access, but " ++ accessHeld a.1 a.2)
    else .granted

/-- policy/src/windows/policy.rs:88-119 `evaluate_request`. -/
def Policy.winEvaluate (debug : Bool) (p : Policy) (req : WinRequest) : Verdict × List (Notification WinRequest) :=
  let res := match req with
    | .fileOpen path access attributes share disposition options ea =>
      p.winCheckFileOpen debug path access attributes share disposition options ea
    | .regKeyOpen path access options create => p.winCheckRegKeyOpen path access options create
  let log := p.logVerdict req res
  let res := if p.auditOnly then .granted else res
  (res, log)

/-- The public functions that extend a policy on Windows. -/
inductive WinCall
  | fs (c : FsCall)
  | regRead (path : Str)
  | regWrite (path : Str)
  | addLogCallback (cb : Nat)
  | inheritHandle (raw : Nat) (isInheritable : Except PolicyError Bool)

/-- One call on a policy: result and new state (policy/src/policy.rs:71-190,
policy/src/windows/policy.rs:247-253). -/
def Policy.winCall (os : WinOs) (p : Policy) : WinCall → Except PolicyError Unit × Policy
  | .fs c => p.fsCall (winPathOs os) c
  | .regRead path => p.allowRegKey os path (true, false)
  | .regWrite path => p.allowRegKey os path (false, true)
  | .addLogCallback cb => (.ok (), p.addLogCallback cb)
  | .inheritHandle raw q => p.allowInheritHandle raw q

/-- A history of calls; results are ignored by the caller. -/
def Policy.winCalls (os : WinOs) (p : Policy) (h : List WinCall) : Policy :=
  h.foldl (fun p c => (p.winCall os c).2) p

end Iris
