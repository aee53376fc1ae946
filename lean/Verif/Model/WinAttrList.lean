import Verif.Model.WinProcess
/-!
# Memory in which the attributes of a Windows worker are kept

Models broker/src/windows/proc_thread_attribute_list.rs and the local variables of the loop of
broker/src/windows/process.rs:281-533 as blocks of memory, in the order in which Rust declares and drops them. `none` stands for
undefined behaviour: memory used while it is not there, or beyond its end. The rest of the loop is that of
WinProcess.lean. Names of profiles, the command line, the environment and texts of errors are left out: Rust keeps
them until after the calls which use them.
-/
namespace Iris

/-- A block of memory: a local variable, or what a vector holds. `val` is the value if it is one of an attribute. -/
structure MemBlock where
  id : Nat
  size : Nat
  val : Option ProcAttr
deriving DecidableEq, Repr

/-- Windows: what an initialised attribute list holds: for each attribute a pointer and a size, not the value. -/
structure AttrList where
  slots : Nat
  entries : List (Nat × Nat)
deriving DecidableEq, Repr

/-- The blocks in use, the initialised lists with the block they are in, the identifiers of profiles (SID) that Windows
allocated for the caller, and the identifier of the next block. -/
structure AttrMem where
  blocks : List MemBlock
  lists : List (Nat × AttrList)
  sids : List Nat
  next : Nat
deriving DecidableEq, Repr

/-- The block at an address. -/
def AttrMem.block? (m : AttrMem) (id : Nat) : Option MemBlock := m.blocks.find? (·.id == id)

/-- The list at an address. -/
def AttrMem.list? (m : AttrMem) (id : Nat) : Option AttrList := (m.lists.find? (·.1 == id)).map (·.2)

/-- A variable is declared, or a vector allocated. -/
def AttrMem.declare (m : AttrMem) (size : Nat) (val : Option ProcAttr) : Nat × AttrMem :=
  (m.next, { m with blocks := ⟨m.next, size, val⟩ :: m.blocks, next := m.next + 1 })

/-- A variable goes out of scope, or a vector is freed: it must be in use. -/
def AttrMem.free (m : AttrMem) (id : Nat) : Option AttrMem :=
  (m.block? id).map fun _ => { m with blocks := m.blocks.filter (·.id != id) }

/-- A variable is assigned. -/
def AttrMem.assign (m : AttrMem) (id : Nat) (val : ProcAttr) : Option AttrMem :=
  (m.block? id).map fun _ =>
    { m with blocks := m.blocks.map fun b => if b.id == id then { b with val := some val } else b }

/-- What `InitializeProcThreadAttributeList` does in one iteration: whether the first call, without a buffer, succeeds,
the error it leaves, the number of bytes it asks for, and whether the second call fails for lack of something else. -/
structure ListOs where
  probeOk : Bool
  probeError : BitVec 32
  required : Nat
  refuses : Bool
deriving DecidableEq, Repr

/-- `ERROR_INSUFFICIENT_BUFFER`. -/
def ERROR_INSUFFICIENT_BUFFER : BitVec 32 := 122

/-- Windows: `InitializeProcThreadAttributeList` with a buffer said to have `size` bytes: fails if that is too small, and
else fills as many bytes as it asked for. -/
def kInitList (os : ListOs) (m : AttrMem) (id slots size : Nat) : Option (Bool × AttrMem) :=
  if size < os.required ∨ os.refuses then some (false, m)
  else (m.block? id).bind fun b =>
    if b.size < os.required then none
    else some (true, { m with lists := (id, ⟨slots, []⟩) :: m.lists.filter (·.1 != id) })

/-- Windows: `UpdateProcThreadAttribute` keeps the pointer and the size. It fails if no slot is left, or if the system does
not know the attribute or does not like the value. -/
def kUpdate (ok : ProcAttr → Bool) (m : AttrMem) (id ptr size : Nat) : Option (Bool × AttrMem) :=
  (m.block? id).bind fun _ => (m.list? id).bind fun l =>
  (m.block? ptr).bind fun v => if v.size < size then none else v.val.bind fun val =>
    if l.slots ≤ l.entries.length ∨ ok val = false then some (false, m)
    else some (true, { m with lists := m.lists.map fun x =>
      if x.1 == id then (x.1, { x.2 with entries := x.2.entries ++ [(ptr, size)] }) else x })

/-- Windows: one value of an attribute list is read. The security capabilities hold a pointer to the identifier of a
profile. -/
def kReadValue (m : AttrMem) (e : Nat × Nat) : Option ProcAttr :=
  (m.block? e.1).bind fun v => if v.size < e.2 then none else v.val.bind fun val =>
    match val with
    | .securityCapabilities id => if id ∈ m.sids then some val else none
    | _ => some val

/-- Windows: `CreateProcess` reads all values. -/
def kReadValues (m : AttrMem) : List (Nat × Nat) → Option (List ProcAttr)
  | [] => some []
  | e :: es => (kReadValue m e).bind fun v => (kReadValues m es).map (v :: ·)

/-- Windows: `CreateProcess` reads the list: its slots and the values. -/
def kReadList (m : AttrMem) (id : Nat) : Option (Nat × List ProcAttr) :=
  (m.block? id).bind fun _ => (m.list? id).bind fun l => (kReadValues m l.entries).map fun vs => (l.slots, vs)

/-- Windows: `DeleteProcThreadAttributeList`. The documentation of `UpdateProcThreadAttribute` demands that values
persist until then: if `strict`, that is checked. -/
def kDeleteList (strict : Bool) (m : AttrMem) (id : Nat) : Option AttrMem :=
  (m.block? id).bind fun _ => (m.list? id).bind fun l =>
    if strict ∧ (kReadValues m l.entries).isNone then none
    else some { m with lists := m.lists.filter (·.1 != id) }

/-- broker/src/windows/proc_thread_attribute_list.rs:25-57 `ProcThreadAttributeList::new`: the block of the list, or an
error. -/
def ptalNew (os : ListOs) (slots : Nat) (m : AttrMem) : Option (Option Nat × AttrMem) :=
  if os.probeOk ∨ os.probeError ≠ ERROR_INSUFFICIENT_BUFFER then some (none, m)
  else
    let (buffer, m) := m.declare os.required none
    match kInitList os m buffer slots os.required with
    | none => none
    | some (false, m) => (m.free buffer).map fun m => (none, m)
    | some (true, m) => some (some buffer, m)

/-- broker/src/windows/proc_thread_attribute_list.rs:16-22 `Drop`, then the vector is freed. -/
def ptalDrop (strict : Bool) (m : AttrMem) (id : Nat) : Option AttrMem := (kDeleteList strict m id).bind (·.free id)

/-- The end of an iteration: variables go out of scope, the last declared first. The list is the first one. -/
def leave (strict : Bool) (m : AttrMem) (ptal : Nat) : List Nat → Option AttrMem
  | [] => ptalDrop strict m ptal
  | v :: vs => (m.free v).bind fun m => leave strict m ptal vs

/-- An iteration ends with `end_`. -/
def leaveWith (strict : Bool) (m : AttrMem) (ptal : Nat) (vars : List Nat) (end_ : WinAttempt) :
    Option (WinAttempt × AttrMem) :=
  (leave strict m ptal vars).map fun m => (end_, m)

/-- `if wanted { ptal.set(…) }`, broker/src/windows/proc_thread_attribute_list.rs:67-91. -/
def ptalTrySet (wanted : Bool) (r : WinRound) (m : AttrMem) (ptal ptr size : Nat) : Option (Bool × AttrMem) :=
  if wanted then kUpdate r.setOk m ptal ptr size else some (true, m)

/-- broker/src/windows/process.rs:386-532, with the variables declared so far, the last one first. A handle has 8 bytes, a
`DWORD` 4. -/
def winFinishMem (strict : Bool) (inherited : List (BitVec 64)) (f : WinFlags) (ptal : Nat) (vars : List Nat)
    (profile : Option Nat) (s : WinStart) (r : WinRound) (m : AttrMem) : Option (WinAttempt × AttrMem) :=
  let handles := handlesToInherit inherited
  let (vHandles, m) := m.declare (handles.length * 8) (some (.handleList handles))
  let vars := vHandles :: vars
  match ptalTrySet f.filterHandles r m ptal vHandles (handles.length * 8) with
  | none => none
  | some (false, m) => leaveWith strict m ptal vars (.again { f with filterHandles := false } s)
  | some (true, m) =>
    let (vChild, m) := m.declare 4 (some (.childProcessPolicy 1))
    let vars := vChild :: vars
    match ptalTrySet f.blockChildren r m ptal vChild 4 with
    | none => none
    | some (false, m) => leaveWith strict m ptal vars (.again { f with blockChildren := false } s)
    | some (true, m) =>
      let (vMitigation, m) := m.declare 4 (some (.mitigationPolicy 0))
      let vars := vMitigation :: vars
      match (if f.mitigations then m.assign vMitigation (.mitigationPolicy mitigationValue) else some m) with
      | none => none
      | some m =>
        match ptalTrySet f.mitigations r m ptal vMitigation 4 with
        | none => none
        | some (false, m) => leaveWith strict m ptal vars (.again { f with mitigations := false } s)
        | some (true, m) =>
          match kReadList m ptal with
          | none => none
          | some (slots, attributes) =>
            let s := { s with calls := s.calls ++ [⟨slots, attributes, r.createOk⟩] }
            leaveWith strict m ptal vars
              (if r.createOk then
                if r.pid = 0 then .failed s else .created ⟨r.pid, profile⟩ s
              else if f.mitigations then .again { f with mitigations := false } s
              else .failed s)

/-- One iteration, broker/src/windows/process.rs:281-533. `SECURITY_CAPABILITIES` has 24 bytes. The identifier that
`CreateAppContainerProfile` allocates is stored in it, and freed nowhere. -/
def winAttemptMem (strict supported : Bool) (inherited : List (BitVec 64)) (f : WinFlags) (s : WinStart) (os : ListOs)
    (r : WinRound) (m : AttrMem) : Option (WinAttempt × AttrMem) :=
  let f := if f.appContainer then f else { f with lessPrivileged := false }
  let slots := [f.appContainer, f.lessPrivileged, f.filterHandles, f.blockChildren, f.mitigations].countP id
  match ptalNew os slots m with
  | none => none
  | some (none, m) => some (.failed s, m)
  | some (some ptal, m) =>
    let (vCaps, m) := m.declare 24 none
    let (vLpac, m) := m.declare 4 (some (.allApplicationPackagesPolicy 1))
    let vars := [vLpac, vCaps]
    if f.appContainer then
      if supported then
        match createProfile s r with
        | (false, s) => leaveWith strict m ptal vars (.again { f with appContainer := false } s)
        | (true, s') =>
          match ({ m with sids := s.nextId :: m.sids } : AttrMem).assign vCaps (.securityCapabilities s.nextId) with
          | none => none
          | some m =>
            match ptalTrySet true r m ptal vCaps 24 with
            | none => none
            | some (false, m) => leaveWith strict m ptal vars (.again { f with appContainer := false } s')
            | some (true, m) =>
              match ptalTrySet f.lessPrivileged r m ptal vLpac 4 with
              | none => none
              | some (false, m) => leaveWith strict m ptal vars (.again { f with lessPrivileged := false } s')
              | some (true, m) => winFinishMem strict inherited f ptal vars (some s.nextId) s' r m
      else leaveWith strict m ptal vars (.again { f with appContainer := false } s)
    else winFinishMem strict inherited f ptal vars none s r m

/-- The loop, as `winLoop`. -/
def winLoopMem (strict supported : Bool) (inherited : List (BitVec 64)) (lists : Nat → ListOs) (rounds : Nat → WinRound) :
    Nat → Nat → WinFlags → WinStart → AttrMem → Option (WinAttempt × AttrMem)
  | 0, _, f, s, m => some (.again f s, m)
  | n + 1, k, f, s, m =>
    match winAttemptMem strict supported inherited f s (lists k) (rounds k) m with
    | some (.again f s, m) => winLoopMem strict supported inherited lists rounds n (k + 1) f s m
    | end_ => end_

/-- `OSSandboxedProcess::new` from the loop on, as `winCreate`. -/
def winCreateMem (strict supported : Bool) (inherited : List (BitVec 64)) (lists : Nat → ListOs)
    (rounds : Nat → WinRound) (n : Nat) (s : WinStart) (m : AttrMem) : Option (WinAttempt × AttrMem) :=
  winLoopMem strict supported inherited lists rounds n 0 ⟨true, true, true, true, true⟩ s m

end Iris
