import Verif.Model.WinProcess
/-!
# Permissions on DLLs

Models broker/src/windows/process.rs:230-268 and 541-818: before a Windows worker is created, the broker lets all
AppContainers load the DLLs next to the executable and in the Windows directory.
-/
namespace Iris

/-- An entry of an access control list: `AceType`, `AceFlags`, the mask and the identifier of the trustee. -/
structure Ace where
  kind : BitVec 8
  flags : BitVec 8
  mask : BitVec 32
  sid : Bytes
deriving DecidableEq, Repr

/-- The access control lists of the files, by path. A file may have none (a null DACL). Paths are the C strings passed
to the system. -/
abbrev WinDacls := Bytes → Option (List Ace)

/-- broker/src/windows/process.rs:43-48 `ACCESS_RIGHTS_REQUIRED_TO_LOAD_DLL`. -/
def LOAD_DLL : BitVec 32 :=
  0x1#32 ||| 0x8#32 ||| 0x20#32 ||| 0x80#32 ||| 0x100000#32 ||| 0x20000#32

/-- `ACCESS_ALLOWED_ACE_TYPE`. -/
def ACCESS_ALLOWED : BitVec 8 := 0

/-- `ERROR_ACCESS_DENIED`, `ERROR_FILE_NOT_FOUND`, `ERROR_NO_MORE_FILES`. -/
def ERROR_ACCESS_DENIED : BitVec 32 := 5
def ERROR_FILE_NOT_FOUND : BitVec 32 := 2
def ERROR_NO_MORE_FILES : BitVec 32 := 18

/-- What the system does in one call of `ensure_dll_has_appcontainer_delegations`. An error is the code
`GetLastError` gives after it. -/
structure AclOs where
  getInfo : Except (BitVec 32) Unit
  aclInfo : Except (BitVec 32) Unit
  getAce : Nat → Except (BitVec 32) Unit
  setEntries : Except (BitVec 32) Unit
  setInfo : Except (BitVec 32) Unit

/-- The system: what it does in the n-th call; `SetEntriesInAclW` with one `GRANT_ACCESS` entry without inheritance,
for a list of entries, rights and a trustee; and what `FindFirstFileA` and `FindNextFileA` list for a pattern:
the names, and the error with which that ended. -/
structure DllOs where
  call : Nat → AclOs
  grant : List Ace → BitVec 32 → Bytes → List Ace
  find : Bytes → List Bytes × BitVec 32

/-- The permissions, and how many calls of `ensure_dll_has_appcontainer_delegations` there were. -/
structure DllState where
  dacls : WinDacls
  calls : Nat

/-- The loop over the entries, broker/src/windows/process.rs:711-743, from the entry with this index on. The loop goes on
after an entry was found. -/
def delegated (getAce : Nat → Except (BitVec 32) Unit) (sid : Bytes) (idx : Nat) :
    List Ace → Except (BitVec 32) Bool
  | [] => .ok false
  | a :: l =>
    match getAce idx with
    | .error e => .error e
    | .ok () =>
      match delegated getAce sid (idx + 1) l with
      | .error e => .error e
      | .ok found =>
        .ok ((decide (a.kind = ACCESS_ALLOWED) && decide (a.mask &&& LOAD_DLL = LOAD_DLL) && decide (a.sid = sid)) || found)

/-- broker/src/windows/process.rs:652-818 `ensure_dll_has_appcontainer_delegations`. `GetAclInformation` fails for a null
DACL, with `ERROR_INVALID_PARAMETER` (87). Not modelled: that `SetNamedSecurityInfoA` also renews the entries inherited from
the directory. What is freed is in Model/WinDllMem.lean. -/
def ensureDll (os : DllOs) (path sid : Bytes) (s : DllState) : Except (BitVec 32) Unit × DllState :=
  let o := os.call s.calls
  let s := { s with calls := s.calls + 1 }
  match o.getInfo with
  | .error e => (if e = ERROR_ACCESS_DENIED then .ok () else .error e, s)
  | .ok () =>
    match s.dacls path with
    | none => (.error 87, s)
    | some dacl =>
      match o.aclInfo with
      | .error e => (.error e, s)
      | .ok () =>
        match delegated o.getAce sid 0 dacl with
        | .error e => (.error e, s)
        | .ok true => (.ok (), s)
        | .ok false =>
          match o.setEntries with
          | .error e => (.error e, s)
          | .ok () =>
            match o.setInfo with
            | .error e => (if e = ERROR_ACCESS_DENIED then .ok () else .error e, s)
            | .ok () =>
              (.ok (), { s with dacls := fun p => if p = path then some (os.grant dacl (LOAD_DLL ||| 0x20000#32) sid) else s.dacls p })

/-- The two trustees: `S-1-15-2-1` and `S-1-15-2-2`, as `get_sid_from_str` gives them,
broker/src/windows/process.rs:541-563 and 570-571. That function is taken not to fail on these two. -/
def ALL_PACKAGES : Bytes := [1, 2, 0, 0, 0, 0, 0, 15, 2, 0, 0, 0, 1, 0, 0, 0]
def ALL_RESTRICTED_PACKAGES : Bytes := [1, 2, 0, 0, 0, 0, 0, 15, 2, 0, 0, 0, 2, 0, 0, 0]

/-- broker/src/windows/process.rs:614-633: both trustees for one file. Errors are logged. -/
def ensureTrustees (os : DllOs) (path : Bytes) (s : DllState) : DllState :=
  (ensureDll os path ALL_RESTRICTED_PACKAGES (ensureDll os path ALL_PACKAGES s).2).2

/-- broker/src/windows/process.rs:578-582: the directory, with a backslash at the end. -/
def withBackslash (folder : Bytes) : Bytes := if folder.getLast? = some 92 then folder else folder ++ [92]

/-- broker/src/windows/process.rs:569-650 `ensure_dlls_have_appcontainer_delegations`. `cFileName` ends with a NUL, which ends the
path, too. The search is never closed: see Model/WinDllMem.lean. -/
def ensureDlls (os : DllOs) (folder : Bytes) (s : DllState) : Except (BitVec 32) Unit × DllState :=
  match os.find (withBackslash folder ++ [42, 46, 100, 108, 108]) with
  | ([], e) => (if e = ERROR_FILE_NOT_FOUND then .ok () else .error e, s)
  | (names, e) =>
    (if e = ERROR_NO_MORE_FILES then .ok () else .error e,
     names.foldl (fun s name => ensureTrustees os (withBackslash folder ++ name) s) s)

/-- broker/src/windows/process.rs:245-248: bytes are removed from the end while the last one is not a backslash. -/
def popToBackslash (exe : Bytes) : Bytes := (exe.reverse.dropWhile (· ≠ 92)).reverse

/-- broker/src/windows/process.rs:244-268: both directories. `windowsDir` is the result of `GetSystemWindowsDirectoryA`. Errors are
logged. -/
def delegateDlls (os : DllOs) (exe windowsDir : Bytes) (s : DllState) : DllState :=
  (ensureDlls os windowsDir (ensureDlls os (popToBackslash exe) s).2).2

end Iris
