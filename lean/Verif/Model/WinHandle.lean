import Verif.Model.WinBroker
/-!
# Windows handles

Models ipc/src/windows/handle.rs: programs made of the operations on handles.
-/
namespace Iris

/-- A handle that somebody is responsible for: its value, and the object it was made for (instrumentation). -/
structure WinOwned where
  value : BitVec 64
  object : Nat
deriving DecidableEq, Repr

/-- The safe operations on handles. A handle is named by the number of the variable holding it. -/
inductive WinHandleOp
  /-- the system hands out a new handle, which is wrapped at once -/
  | create (h : Nat) (value : BitVec 64) (object : Nat)
  /-- `let h2 = h.clone()`; the handle `DuplicateHandle` makes, if it succeeds, and the number it returns -/
  | clone (h h2 : Nat) (made : Option (BitVec 64)) (result : BitVec 32)
  /-- `let n = h.into_raw()` -/
  | intoRaw (h : Nat)
  /-- `let h = Handle::from_raw(n)`, within its contract: `n` came from `into_raw` and has no owner -/
  | adopt (value : BitVec 64) (h : Nat)
  /-- `h.set_inheritable(allow)` -/
  | setInheritable (h : Nat) (allow : Bool)
  /-- the variable goes out of scope -/
  | drop (h : Nat)
deriving DecidableEq, Repr

/-- A program using handles: the handles of its process, which of them are inheritable, its live variables, what was given up by
`into_raw`, whether `CloseHandle` was ever called on something else than a handle, and the history of handles obtained and
closed (instrumentation). -/
structure WinHandleState where
  table : HTable
  inheritable : List (BitVec 64)
  live : List (Nat × WinOwned)
  released : List WinOwned
  badClose : Bool
  opened : List (BitVec 64)
  closed : List (BitVec 64)
deriving DecidableEq, Repr

/-- What the variable `h` holds. -/
def winOwner (live : List (Nat × WinOwned)) (h : Nat) : Option WinOwned :=
  match live with
  | [] => none
  | (n, o) :: rest => if n = h then some o else winOwner rest h

/-- The first released handle with this value. -/
def winReleased (released : List WinOwned) (value : BitVec 64) : Option WinOwned :=
  match released with
  | [] => none
  | o :: rest => if o.value = value then some o else winReleased rest value

/-- `SetHandleInformation` as called in ipc/src/windows/handle.rs:26-42 `set_inheritable`; the code is `ERROR_INVALID_HANDLE`. -/
def winSetInheritable (t : HTable) (inheritable : List (BitVec 64)) (h : BitVec 64) (allow : Bool) :
    Except HandleError Unit × List (BitVec 64) :=
  match t.get h with
  | none => (.error (.internalOsOperationFailed c!"SetHandleInformation() failed" h 6), inheritable)
  | some _ =>
    (.ok (), if allow then h :: inheritable.filter (· ≠ h) else inheritable.filter (· ≠ h))

/-- ipc/src/windows/handle.rs:44-56 `is_inheritable`. -/
def winGetInheritable (t : HTable) (inheritable : List (BitVec 64)) (h : BitVec 64) : Except HandleError Bool :=
  match t.get h with
  | none => .error (.internalOsOperationFailed c!"GetHandleInformation() failed" h 6)
  | some _ => .ok (inheritable.contains h)

/-- ipc/src/windows/handle.rs:73-86 `Drop`. `CloseHandle` returns 0 on failure, which is not less than 0. -/
def WinHandleState.close (s : WinHandleState) (h : BitVec 64) : WinHandleState :=
  match s.table.get h with
  | some _ =>
    { s with table := s.table.close h, inheritable := s.inheritable.filter (· ≠ h), closed := h :: s.closed }
  | none => { s with badClose := true, closed := h :: s.closed }

/-- One operation. The type system only lets a live variable be used and a fresh one be bound; an operation outside of
that, or a new handle whose value is not free, is no program, and changes nothing. `clone`
(ipc/src/windows/handle.rs:88-112) wraps the number returned by `DuplicateHandle` instead of the handle made, and takes only
negative numbers for a failure; its own conversion from `i32` to `u64` panics on those. `as_raw` and `into_raw` are lines
58-70. -/
def WinHandleState.step (s : WinHandleState) : WinHandleOp → WinHandleState
  | .create h v object =>
    if winOwner s.live h = none ∧ s.table.free v = true then
      { s with table := (v, object) :: s.table, live := (h, ⟨v, object⟩) :: s.live, opened := v :: s.opened }
    else s
  | .clone h h2 made result =>
    match winOwner s.live h, winOwner s.live h2 with
    | some o, none =>
      if result.msb then s
      else
        let s' := match made with
          | some d =>
            if s.table.free d then { s with table := (d, o.object) :: s.table, opened := d :: s.opened } else s
          | none => s
        { s' with live := (h2, ⟨result.setWidth 64, o.object⟩) :: s'.live }
    | _, _ => s
  | .intoRaw h =>
    match winOwner s.live h with
    | some o => { s with live := s.live.filter (fun x => x.1 ≠ h), released := o :: s.released }
    | none => s
  | .adopt v h =>
    match winReleased s.released v, winOwner s.live h with
    | some o, none => { s with live := (h, o) :: s.live, released := s.released.filter (·.value ≠ v) }
    | _, _ => s
  | .setInheritable h allow =>
    match winOwner s.live h with
    | some o => { s with inheritable := (winSetInheritable s.table s.inheritable o.value allow).2 }
    | none => s
  | .drop h =>
    match winOwner s.live h with
    | some o => { s with live := s.live.filter (fun x => x.1 ≠ h) }.close o.value
    | none => s

/-- A program starts with the handles it was given and no variable. -/
def WinHandleState.start (t : HTable) (inheritable : List (BitVec 64)) : WinHandleState :=
  ⟨t, inheritable, [], [], false, [], []⟩

def WinHandleState.run (s : WinHandleState) (ops : List WinHandleOp) : WinHandleState := ops.foldl WinHandleState.step s

end Iris
