import Verif.Model.Kernel
/-!
# Linux handles

Models ipc/src/linux/handle.rs and ipc/src/error.rs:2-11.
-/
namespace Iris

/-- ipc/src/error.rs:2-11 `HandleError`. -/
inductive HandleError
  | invalidHandleValue (raw : BitVec 64)
  | internalOsOperationFailed (description : Str) (raw : BitVec 64) (osCode : Nat)
deriving DecidableEq, Repr

/-- ipc/src/linux/handle.rs:8-11. -/
structure Handle where
  val : Option (BitVec 32)
deriving DecidableEq, Repr

/-- ipc/src/linux/handle.rs:14-24 `from_raw`: `u64 -> i32` succeeds up to
`i32::MAX`, then the sign is checked. -/
def Handle.fromRaw (raw : BitVec 64) : Except HandleError Handle :=
  if raw.toNat ≤ 2147483647 then
    let fd : BitVec 32 := raw.setWidth 32
    if 0 ≤ fd.toInt then .ok ⟨some fd⟩ else .error (.invalidHandleValue raw)
  else .error (.invalidHandleValue raw)

/-- ipc/src/linux/handle.rs:66-68 `as_raw`; `none` is the `unwrap` panic. -/
def Handle.asRaw (h : Handle) : Option (BitVec 64) := h.val.map (·.signExtend 64)

/-- ipc/src/linux/handle.rs:70-75 `into_raw`: the value, and what is left of the
handle when it is then dropped. -/
def Handle.intoRaw (h : Handle) : Option (BitVec 64) × Handle :=
  (h.val.map (·.signExtend 64), ⟨none⟩)

/-- ipc/src/linux/handle.rs:26-51 `set_inheritable` on descriptor `fd`. -/
def setInheritable (t : FdTable) (fd : Nat) (allow : Bool) : Except HandleError Unit × FdTable :=
  match sysGetFd t fd with
  | .error e => (.error (.internalOsOperationFailed c!"fcntl(F_GETFD) failed" (BitVec.ofNat 64 fd) e), t)
  | .ok cur =>
    match sysSetFd t fd ((cur &&& ~~~FD_CLOEXEC) ||| (if allow then 0#32 else FD_CLOEXEC)) with
    | .error e =>
      (.error (.internalOsOperationFailed c!"fcntl(F_SETFD, FD_CLOEXEC) failed" (BitVec.ofNat 64 fd) e), t)
    | .ok t' => (.ok (), t')

/-- ipc/src/linux/handle.rs:53-64 `is_inheritable`. -/
def isInheritable (t : FdTable) (fd : Nat) : Except HandleError Bool :=
  match sysGetFd t fd with
  | .error e => .error (.internalOsOperationFailed c!"fcntl(F_GETFD) failed" (BitVec.ofNat 64 fd) e)
  | .ok cur => .ok ((cur &&& FD_CLOEXEC) == 0#32)

/-- The safe operations on handles. A handle is named by the number of the
variable holding it. -/
inductive HandleOp
  /-- the system hands out a new descriptor (open, socketpair, ...) and it is
  wrapped at once -/
  | create (h : Nat) (file : Nat)
  /-- `let h2 = h.clone()` -/
  | clone (h h2 : Nat)
  /-- `let n = h.into_raw()` -/
  | intoRaw (h : Nat)
  /-- `let h = Handle::from_raw(fd)`, within its contract: `fd` came from `into_raw`
  and has no owner -/
  | adopt (fd h : Nat)
  /-- the variable goes out of scope -/
  | drop (h : Nat)
deriving DecidableEq, Repr

/-- A program using handles: its descriptor table, its live handle variables, the
descriptors given up by `into_raw`, whether a `close` ever failed (debug builds
panic then), and the history of descriptors obtained from the system and of
`close` calls (instrumentation). -/
structure HandleState where
  table : FdTable
  live : List (Nat × Nat)
  released : List Nat
  closeFailed : Bool
  opened : List Nat
  closed : List Nat
deriving DecidableEq, Repr

/-- The descriptor owned by handle variable `h`. -/
def ownedBy (live : List (Nat × Nat)) (h : Nat) : Option Nat :=
  match live with
  | [] => none
  | (n, fd) :: rest => if n = h then some fd else ownedBy rest h

/-- ipc/src/linux/handle.rs:78-90 `Drop`: `close`, and note a failure. -/
def HandleState.close (s : HandleState) (fd : Nat) : HandleState :=
  match s.table.get fd with
  | some _ => { s with table := s.table.erase fd, closed := fd :: s.closed }
  | none => { s with closeFailed := true, closed := fd :: s.closed }

/-- One operation. The type system only lets a live variable be used and a fresh
one be bound; an operation outside of that is no program, and changes nothing.
`clone` is `dup` (ipc/src/linux/handle.rs:92-104), `into_raw` takes the value out
so that the following drop closes nothing (70-75). -/
def HandleState.step (s : HandleState) : HandleOp → HandleState
  | .create h file =>
    if ownedBy s.live h = none then
      let (fd, t) := s.table.alloc ⟨file, 0#32⟩
      { s with table := t, live := (h, fd) :: s.live, opened := fd :: s.opened }
    else s
  | .clone h h2 =>
    match ownedBy s.live h, ownedBy s.live h2 with
    | some fd, none =>
      match s.table.get fd with
      | some e =>
        let (fd2, t) := s.table.alloc ⟨e.file, 0#32⟩
        { s with table := t, live := (h2, fd2) :: s.live, opened := fd2 :: s.opened }
      | none => s
    | _, _ => s
  | .intoRaw h =>
    match ownedBy s.live h with
    | some fd =>
      { s with live := s.live.filter (fun x => x.1 ≠ h), released := fd :: s.released }
    | none => s
  | .adopt fd h =>
    if fd ∈ s.released ∧ ownedBy s.live h = none then
      { s with live := (h, fd) :: s.live, released := s.released.filter (· ≠ fd) }
    else s
  | .drop h =>
    match ownedBy s.live h with
    | some fd => { s with live := s.live.filter (fun x => x.1 ≠ h) }.close fd
    | none => s

/-- A program starts with the table it was given and no handle. -/
def HandleState.start (t : FdTable) : HandleState := ⟨t, [], [], false, [], []⟩

def HandleState.run (s : HandleState) (ops : List HandleOp) : HandleState := ops.foldl HandleState.step s

end Iris
