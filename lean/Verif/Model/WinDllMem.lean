import Verif.Model.WinDlls
/-!
# What the broker gets from the system to change permissions on DLLs, and gives back

Model/WinDlls.lean again, broker/src/windows/process.rs:541-818, with the memory that the system allocates for the
broker and the searches it opens. Rust's own allocations are not modelled: they are freed by the compiler.
-/
namespace Iris

/-- What the system allocates: a security identifier (`ConvertStringSidToSidA`), a security descriptor with its access control
list (`GetNamedSecurityInfoA`), a new access control list (`SetEntriesInAclW`), a search (`FindFirstFileA`). -/
inductive DllThing
  | sid
  | descriptor
  | acl
  | search
deriving DecidableEq, Repr

/-- What happens to the things the system allocated, which are numbered: `LocalFree` is `free`, every access of the broker, or of
the system for it, is `use`. -/
inductive DllEvent
  | alloc (i : Nat) (k : DllThing)
  | use (i : Nat)
  | free (i : Nat)
deriving DecidableEq, Repr

/-- What has happened, and the next number. -/
structure DllMem where
  next : Nat
  log : List DllEvent
deriving DecidableEq, Repr

def DllMem.alloc (m : DllMem) (k : DllThing) : DllMem := ⟨m.next + 1, m.log ++ [.alloc m.next k]⟩
def DllMem.use (m : DllMem) (i : Nat) : DllMem := ⟨m.next, m.log ++ [.use i]⟩
def DllMem.free (m : DllMem) (i : Nat) : DllMem := ⟨m.next, m.log ++ [.free i]⟩

/-- The system, with the failures of `ConvertStringSidToSidA` and `GetLengthSid` in the n-th call of
`get_sid_from_str`. -/
structure DllMemOs extends DllOs where
  convert : Nat → Option (BitVec 32)
  length : Nat → Option (BitVec 32)

/-- broker/src/windows/process.rs:541-563 `get_sid_from_str`, for the text of this identifier. -/
def getSidM (os : DllMemOs) (k : Nat) (sid : Bytes) (m : DllMem) : Except (BitVec 32) Bytes × DllMem :=
  match os.convert k with
  | some e => (.error e, m)
  | none =>
    let p := m.next
    let m := (m.alloc .sid).use p
    match os.length k with
    | some e => (.error e, m)
    | none => (.ok sid, (m.use p).free p)

/-- The loop over the entries, broker/src/windows/process.rs:711-743: `GetAce` reads the list in the descriptor `sd`; then the
entry there is read. -/
def delegatedM (getAce : Nat → Except (BitVec 32) Unit) (sid : Bytes) (sd : Nat) (idx : Nat) :
    List Ace → DllMem → Except (BitVec 32) Bool × DllMem
  | [], m => (.ok false, m)
  | a :: l, m =>
    match getAce idx with
    | .error e => (.error e, m.use sd)
    | .ok () =>
      match delegatedM getAce sid sd (idx + 1) l ((m.use sd).use sd) with
      | (.error e, m) => (.error e, m)
      | (.ok found, m) =>
        (.ok ((decide (a.kind = ACCESS_ALLOWED) && decide (a.mask &&& LOAD_DLL = LOAD_DLL) && decide (a.sid = sid)) || found), m)

/-- broker/src/windows/process.rs:652-818 `ensure_dll_has_appcontainer_delegations`. A null DACL is in a descriptor, too. -/
def ensureDllM (os : DllOs) (path sid : Bytes) (s : DllState) (m : DllMem) : (Except (BitVec 32) Unit × DllState) × DllMem :=
  let o := os.call s.calls
  let s := { s with calls := s.calls + 1 }
  match o.getInfo with
  | .error e => ((if e = ERROR_ACCESS_DENIED then .ok () else .error e, s), m)
  | .ok () =>
    let sd := m.next
    let m := m.alloc .descriptor
    match s.dacls path with
    | none => ((.error 87, s), m.free sd)
    | some dacl =>
      let m := m.use sd
      match o.aclInfo with
      | .error e => ((.error e, s), m.free sd)
      | .ok () =>
        match delegatedM o.getAce sid sd 0 dacl m with
        | (.error e, m) => ((.error e, s), m.free sd)
        | (.ok true, m) => ((.ok (), s), m.free sd)
        | (.ok false, m) =>
          let m := m.use sd
          match o.setEntries with
          | .error e => ((.error e, s), m.free sd)
          | .ok () =>
            let acl := m.next
            let m := ((m.alloc .acl).free sd).use acl
            match o.setInfo with
            | .error e => ((if e = ERROR_ACCESS_DENIED then .ok () else .error e, s), m)
            | .ok () =>
              ((.ok (), { s with dacls := fun p => if p = path then some (os.grant dacl (LOAD_DLL ||| 0x20000#32) sid) else s.dacls p }), m)

/-- broker/src/windows/process.rs:614-633: both trustees for one file. -/
def ensureTrusteesM (os : DllOs) (path sid1 sid2 : Bytes) (s : DllState) (m : DllMem) : DllState × DllMem :=
  let r := ensureDllM os path sid1 s m
  let r := ensureDllM os path sid2 r.1.2 r.2
  (r.1.2, r.2)

/-- The loop, broker/src/windows/process.rs:602-649: after each file `FindNextFileA` is called on the search. -/
def searchM (os : DllOs) (dir sid1 sid2 : Bytes) (search : Nat) : List Bytes → DllState → DllMem → DllState × DllMem
  | [], s, m => (s, m)
  | name :: names, s, m =>
    let r := ensureTrusteesM os (dir ++ name) sid1 sid2 s m
    searchM os dir sid1 sid2 search names r.1 (r.2.use search)

/-- broker/src/windows/process.rs:569-650 `ensure_dlls_have_appcontainer_delegations`; `k` is the number of calls of `get_sid_from_str`
before. There is a search to close if it found a file. -/
def ensureDllsM (os : DllMemOs) (k : Nat) (folder : Bytes) (s : DllState) (m : DllMem) :
    (Except (BitVec 32) Unit × DllState) × DllMem :=
  match getSidM os k ALL_PACKAGES m with
  | (.error e, m) => ((.error e, s), m)
  | (.ok sid1, m) =>
    match getSidM os (k + 1) ALL_RESTRICTED_PACKAGES m with
    | (.error e, m) => ((.error e, s), m)
    | (.ok sid2, m) =>
      match os.find (withBackslash folder ++ [42, 46, 100, 108, 108]) with
      | ([], e) => ((if e = ERROR_FILE_NOT_FOUND then .ok () else .error e, s), m)
      | (names, e) =>
        let r := searchM os.toDllOs (withBackslash folder) sid1 sid2 m.next names s (m.alloc .search)
        ((if e = ERROR_NO_MORE_FILES then .ok () else .error e, r.1), r.2)

/-- broker/src/windows/process.rs:244-268: both directories. -/
def delegateDllsM (os : DllMemOs) (exe windowsDir : Bytes) (s : DllState) (m : DllMem) : DllState × DllMem :=
  let r := ensureDllsM os 0 (popToBackslash exe) s m
  let r := ensureDllsM os 2 windowsDir r.1.2 r.2
  (r.1.2, r.2)

/-- Any number of creations of workers, broker/src/windows/process.rs:173-534, as far as DLLs are concerned: each with its own
system calls, executable and Windows directory. -/
def delegateAll : List (DllMemOs × Bytes × Bytes) → DllState → DllMem → DllState × DllMem
  | [], s, m => (s, m)
  | (os, exe, windowsDir) :: l, s, m =>
    let r := delegateDllsM os exe windowsDir s m
    delegateAll l r.1 r.2

end Iris
