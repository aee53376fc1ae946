import Verif.Model.ProcessConfig
/-!
# Creation of a Windows worker

Models broker/src/windows/process.rs and broker/src/windows/proc_thread_attribute_list.rs: the command line, the
environment block, and the negotiation of process attributes with the operating system.
-/
namespace Iris

/-! ## Command line -/

/-- One argument, broker/src/windows/process.rs:182-192. -/
def winQuoted (arg : Bytes) : Bytes :=
  [32] ++ (if arg.contains 32 then [34] else []) ++ arg ++ (if arg.contains 32 then [34] else [])

/-- broker/src/windows/process.rs:175-193: the command line; `none` is `MissingCommandLine`. `CString::new` does
not fail, as all the parts come from C strings. -/
def winCommandLine (exe : Bytes) : List Bytes → Option Bytes
  | [] => none
  | _ :: args => some ([34] ++ exe ++ [34] ++ args.flatMap winQuoted)

/-! ## Environment -/

/-- broker/src/windows/process.rs:67-98 `PROCESS_SANITIZED_ENVIRONMENT`. -/
def sanitizedEnvironment : List (Str × Option Str) :=
  [(c!"COMPUTERNAME", some c!"PC"),
   (c!"LOGONSERVER", some c!"\\\\PC"),
   (c!"USERDOMAIN", some c!"PC"),
   (c!"USERDOMAIN_ROAMINGPROFILE", some c!"PC"),
   (c!"USERNAME", some c!"User"),
   (c!"COMMONPROGRAMFILES", none),
   (c!"COMMONPROGRAMFILES(X86)", none),
   (c!"COMMONPROGRAMW6432", none),
   (c!"COMSPEC", none),
   (c!"DRIVERDATA", none),
   (c!"HOMEDRIVE", none),
   (c!"OS", none),
   (c!"PATHEXT", none),
   (c!"PROGRAMDATA", none),
   (c!"PROGRAMFILES", none),
   (c!"PROGRAMFILES(X86)", none),
   (c!"PROGRAMW6432", none),
   (c!"PUBLIC", none),
   (c!"SESSIONNAME", none),
   (c!"SYSTEMDRIVE", none),
   (c!"SYSTEMROOT", none),
   (c!"WINDIR", none),
   (c!"NUMBER_OF_PROCESSORS", none),
   (c!"PROCESSOR_ARCHITECTURE", none),
   (c!"PROCESSOR_IDENTIFIER", none),
   (c!"PROCESSOR_LEVEL", none),
   (c!"PROCESSOR_REVISION", none),
   (c!"LOCALAPPDATA", none)]

/-- broker/src/windows/process.rs:204-213: some entry starts with the name and `=`. -/
def explicitlySet (name : Bytes) (entries : List Bytes) : Bool :=
  entries.any fun e => decide (name.length ≤ e.length) && e.take name.length == name && e[name.length]? == some eqSign

/-- broker/src/windows/process.rs:202-221, for one variable. `sys` is `std::env::var`: `none` if the variable is not
set or is not valid Unicode. Its values contain no NUL, so `CString::new` does not fail. -/
def mergeVar (sys : Str → Option Str) (merged : List Bytes) (v : Str × Option Str) : List Bytes :=
  if explicitlySet (utf8 v.1) merged then merged
  else match v.2 with
    | some forced => merged ++ [utf8 (v.1 ++ '=' :: forced)]
    | none =>
      match sys v.1 with
      | some value => merged ++ [utf8 (v.1 ++ '=' :: value)]
      | none => merged

/-- broker/src/windows/process.rs:197-221. -/
def mergeEnv (sys : Str → Option Str) (envp : List Bytes) : List Bytes :=
  sanitizedEnvironment.foldl (mergeVar sys) envp

/-- broker/src/windows/process.rs:222-227. -/
def envBlock (merged : List Bytes) : Bytes := merged.flatMap (· ++ [0]) ++ [0]

/-! ## Attributes -/

/-- The five variables of the loop, broker/src/windows/process.rs:275-279. -/
structure WinFlags where
  appContainer : Bool
  lessPrivileged : Bool
  filterHandles : Bool
  blockChildren : Bool
  mitigations : Bool
deriving DecidableEq, Repr

/-- What `ProcThreadAttributeList::set` is called with. The security capabilities hold the identifier of the
profile with this number, and no capability. -/
inductive ProcAttr
  | securityCapabilities (profile : Nat)
  | allApplicationPackagesPolicy (value : BitVec 32)
  | handleList (handles : List (BitVec 64))
  | childProcessPolicy (value : BitVec 32)
  | mitigationPolicy (value : BitVec 32)
deriving DecidableEq, Repr

/-- What the operating system does in one iteration of the loop. -/
structure WinRound where
  /-- `ProcThreadAttributeList::new` succeeds -/
  listOk : Bool
  /-- results of the first and of the second `CreateAppContainerProfile` -/
  profile1 : BitVec 32
  profile2 : BitVec 32
  /-- `UpdateProcThreadAttribute` succeeds -/
  setOk : ProcAttr → Bool
  /-- `CreateProcess` succeeds -/
  createOk : Bool
  /-- the result of `GetProcessId` -/
  pid : BitVec 32

/-- A call of `CreateProcess`: the slots of the attribute list, the attributes set, and whether a process was created. -/
structure CreateProcessCall where
  slots : Nat
  attributes : List ProcAttr
  ok : Bool
deriving DecidableEq, Repr

/-- `PER_PROCESS_APPCONTAINER_ID`, the profiles that exist, and the calls of `CreateProcess` so far. -/
structure WinStart where
  nextId : Nat
  profiles : List Nat
  calls : List CreateProcessCall
deriving DecidableEq, Repr

/-- broker/src/windows/process.rs:103-107 `OSSandboxedProcess`. -/
structure WinProcess where
  pid : BitVec 32
  profile : Option Nat
deriving DecidableEq, Repr

/-- How an iteration ends. -/
inductive WinAttempt
  | again (f : WinFlags) (s : WinStart)
  | created (p : WinProcess) (s : WinStart)
  | failed (s : WinStart)
deriving DecidableEq, Repr

/-- `HRESULT_FROM_WIN32(ERROR_ALREADY_EXISTS)`. -/
def HRESULT_ALREADY_EXISTS : BitVec 32 := 0x800700B7

/-- The mitigations, broker/src/windows/process.rs:58-65 and 425-437. -/
def mitigationValue : BitVec 32 :=
  0x1#32 ||| 0x4#32 ||| 0x100#32 ||| 0x300#32 ||| 0x10000#32 ||| 0x100000#32 ||| 0x1000#32 ||| 0x10000000#32

/-- broker/src/windows/process.rs:304-346: the profile is created, after another one of this name was deleted if
there was one. Gives the new state, and whether the profile could be created. -/
def createProfile (s : WinStart) (r : WinRound) : Bool × WinStart :=
  let id := s.nextId
  let s := { s with nextId := id + 1 }
  if r.profile1 = HRESULT_ALREADY_EXISTS then
    let s := { s with profiles := s.profiles.filter (· ≠ id) }
    if r.profile2 = 0 then (true, { s with profiles := s.profiles ++ [id] }) else (false, s)
  else if r.profile1 = 0 then (true, { s with profiles := s.profiles ++ [id] })
  else (false, s)

/-- `if wanted { ptal.set(…) }`: the attributes set then, `none` if it fails. -/
def trySet (wanted : Bool) (r : WinRound) (a : ProcAttr) (attributes : List ProcAttr) : Option (List ProcAttr) :=
  if wanted then if r.setOk a then some (attributes ++ [a]) else none else some attributes

/-- `Vec::sort`, of numbers: only its result matters, not how it is computed. -/
def insertSorted (x : BitVec 64) : List (BitVec 64) → List (BitVec 64)
  | [] => [x]
  | y :: l => if x.toNat ≤ y.toNat then x :: y :: l else y :: insertSorted x l

/-- `Vec::dedup`: of equal neighbours one is kept. -/
def dedupSorted : List (BitVec 64) → List (BitVec 64)
  | [] => []
  | [a] => [a]
  | a :: b :: l => if a = b then dedupSorted (b :: l) else a :: dedupSorted (b :: l)

/-- The numbers set in the handle list: `sort` and `dedup`, broker/src/windows/process.rs:389-395. -/
def handlesToInherit (inherited : List (BitVec 64)) : List (BitVec 64) :=
  dedupSorted (inherited.foldr insertSorted [])

/-- From the handle list to the end of the iteration, broker/src/windows/process.rs:386-532. `attributes` are those set so
far. -/
def winFinish (inherited : List (BitVec 64)) (f : WinFlags) (slots : Nat) (attributes : List ProcAttr)
    (profile : Option Nat) (s : WinStart) (r : WinRound) : WinAttempt :=
  match trySet f.filterHandles r (.handleList (handlesToInherit inherited)) attributes with
  | none => .again { f with filterHandles := false } s
  | some attributes =>
    match trySet f.blockChildren r (.childProcessPolicy 1) attributes with
    | none => .again { f with blockChildren := false } s
    | some attributes =>
      match trySet f.mitigations r (.mitigationPolicy mitigationValue) attributes with
      | none => .again { f with mitigations := false } s
      | some attributes =>
        let s := { s with calls := s.calls ++ [⟨slots, attributes, r.createOk⟩] }
        if r.createOk then
          if r.pid = 0 then .failed s else .created ⟨r.pid, profile⟩ s
        else if f.mitigations then .again { f with mitigations := false } s
        else .failed s

/-- One iteration, broker/src/windows/process.rs:281-533. `supported` is whether `APPCONTAINER_PROFILE_FN` was found. -/
def winAttempt (supported : Bool) (inherited : List (BitVec 64)) (f : WinFlags) (s : WinStart) (r : WinRound) :
    WinAttempt :=
  let f := if f.appContainer then f else { f with lessPrivileged := false }
  let slots := [f.appContainer, f.lessPrivileged, f.filterHandles, f.blockChildren, f.mitigations].countP id
  if r.listOk then
    if f.appContainer then
      if supported then
        match createProfile s r with
        | (false, s) => .again { f with appContainer := false } s
        | (true, s') =>
          match trySet true r (.securityCapabilities s.nextId) [] with
          | none => .again { f with appContainer := false } s'
          | some attributes =>
            match trySet f.lessPrivileged r (.allApplicationPackagesPolicy 1) attributes with
            | none => .again { f with lessPrivileged := false } s'
            | some attributes => winFinish inherited f slots attributes (some s.nextId) s' r
      else .again { f with appContainer := false } s
    else winFinish inherited f slots [] none s r
  else .failed s

/-- The loop, broker/src/windows/process.rs:281-533, for at most `n` iterations: `.again` if it did not end. -/
def winLoop (supported : Bool) (inherited : List (BitVec 64)) (rounds : Nat → WinRound) :
    Nat → Nat → WinFlags → WinStart → WinAttempt
  | 0, _, f, s => .again f s
  | n + 1, k, f, s =>
    match winAttempt supported inherited f s (rounds k) with
    | .again f s => winLoop supported inherited rounds n (k + 1) f s
    | end_ => end_

/-- `OSSandboxedProcess::new` from the loop on. -/
def winCreate (supported : Bool) (inherited : List (BitVec 64)) (rounds : Nat → WinRound) (n : Nat) (s : WinStart) :
    WinAttempt :=
  winLoop supported inherited rounds n 0 ⟨true, true, true, true, true⟩ s

/-- broker/src/windows/process.rs:156-171 `Drop`: the profile of the process is deleted. -/
def WinProcess.drop (supported : Bool) (p : WinProcess) (s : WinStart) : WinStart :=
  match p.profile with
  | some id => if supported then { s with profiles := s.profiles.filter (· ≠ id) } else s
  | none => s

end Iris
