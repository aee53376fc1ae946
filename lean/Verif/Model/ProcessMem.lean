import Verif.Model.Process
/-!
# Memory in which the parameters of a new worker are kept

Models broker/src/linux/process.rs:27-178 again, with the memory it allocates: vectors, C strings, the boxed parameters
and the stacks are blocks, in the order in which Rust allocates and drops them; the new process follows the pointers it
is given in its copy of the memory. `none` stands for undefined behaviour: memory used or freed while it is not there,
or read beyond its end. The rest is `newProcess`.
-/
namespace Iris

/-- linux-entrypoint/src/entry.rs:9-24 `EntrypointParameters` as it is in memory, without the debug descriptor:
pointers and lengths. -/
structure RawParams where
  uidMap : Nat
  uidMapLen : Nat
  gidMap : Nat
  gidMapLen : Nat
  exe : Nat
  argv : Nat
  envp : Nat
  allowed : Nat
  allowedCount : Nat
  errnoPipe : Nat
  stdin : Option Nat
  stdout : Option Nat
  stderr : Option Nat
deriving DecidableEq, Repr

/-- What a block of memory holds. A null pointer is `none`. -/
inductive LBlock
  | bytes (b : Bytes)
  | ptrs (l : List (Option Nat))
  | ints (l : List Int)
  | params (r : RawParams)
  | stack (size : Nat)
deriving DecidableEq, Repr

/-- The blocks in use by address, and the address of the next one. -/
structure LMem where
  blocks : Nat → Option LBlock
  next : Nat

/-- A block is allocated. -/
def LMem.alloc (m : LMem) (b : LBlock) : Nat × LMem :=
  (m.next, ⟨fun i => if i = m.next then some b else m.blocks i, m.next + 1⟩)

/-- A block is freed: it must be in use. -/
def LMem.free (m : LMem) (a : Nat) : Option LMem :=
  (m.blocks a).map fun _ => ⟨fun i => if i = a then none else m.blocks i, m.next⟩

/-- Values go out of scope, in this order. -/
def LMem.drops (m : LMem) : List Nat → Option LMem
  | [] => some m
  | a :: l => (m.free a).bind (·.drops l)

/-- `write` with a pointer and a length. -/
def LMem.readBytes (m : LMem) (a len : Nat) : Option Bytes :=
  match m.blocks a with
  | some (.bytes b) => if len ≤ b.length then some (b.take len) else none
  | _ => none

/-- A C string: the bytes before the first NUL. -/
def LMem.readCStr (m : LMem) (a : Nat) : Option Bytes :=
  match m.blocks a with
  | some (.bytes b) => if b.contains 0 then some (b.takeWhile (· != 0)) else none
  | _ => none

/-- The pointers before the first null pointer. -/
def untilNull : List (Option Nat) → Option (List Nat)
  | [] => none
  | none :: _ => some []
  | some a :: l => (untilNull l).map (a :: ·)

/-- C strings at some addresses. -/
def LMem.readCStrs (m : LMem) : List Nat → Option (List Bytes)
  | [] => some []
  | a :: l => (m.readCStr a).bind fun s => (m.readCStrs l).map (s :: ·)

/-- Linux: an argument of `execve`: C strings, by an array of pointers that ends with a null pointer. -/
def LMem.readStrings (m : LMem) (a : Nat) : Option (List Bytes) :=
  match m.blocks a with
  | some (.ptrs l) => (untilNull l).bind m.readCStrs
  | _ => none

/-- linux-entrypoint/src/entry.rs:200-201: that many numbers. (The loop stops at the first one it looks for.) -/
def LMem.readInts (m : LMem) (a count : Nat) : Option (List Nat) :=
  match m.blocks a with
  | some (.ints l) => if count ≤ l.length then some ((l.take count).map Int.toNat) else none
  | _ => none

/-- linux-entrypoint/src/entry.rs:30, 71, 87, 201 and 242: the parameters at an address, with everything they point to. -/
def LMem.readParams (m : LMem) (a : Nat) : Option EntryParams :=
  match m.blocks a with
  | some (.params r) => do
    let uidMap ← m.readBytes r.uidMap r.uidMapLen
    let gidMap ← m.readBytes r.gidMap r.gidMapLen
    let exe ← m.readCStr r.exe
    let argv ← m.readStrings r.argv
    let envp ← m.readStrings r.envp
    let allowed ← m.readInts r.allowed r.allowedCount
    some ⟨uidMap, gidMap, exe, argv, envp, allowed, r.errnoPipe, r.stdin, r.stdout, r.stderr⟩
  | _ => none

/-- Where the strings of a process configuration are. -/
structure ConfigAt where
  exe : Nat
  argv : List Nat
  envp : List Nat
deriving DecidableEq, Repr

/-! libc: flags of `clone`. -/
def CLONE_VM : BitVec 32 := 0x100#32
def CLONE_NEWUSER : BitVec 32 := 0x10000000#32
def CLONE_NEWPID : BitVec 32 := 0x20000000#32

/-- Linux: the memory a new process sees: a copy of that of the caller at the time of the call; with `CLONE_VM` the same
memory, here as it is when the caller was the faster one. -/
def childMemory (flags : BitVec 32) (atClone later : LMem) : LMem :=
  if flags &&& CLONE_VM = 0#32 then atClone else later

/-- broker/src/linux/process.rs:13. -/
def DEFAULT_CLONE_STACK_SIZE : Nat := 1024 * 1024

/-- broker/src/linux/process.rs:148-178 `try_clone`: the process number, the stack and the flags; the stack is dropped
after a failure. -/
def tryCloneMem (res : Except Nat Nat) (flags : BitVec 32) (m : LMem) :
    Option (Except Nat (Nat × Nat × BitVec 32) × LMem) :=
  let (stack, m) := m.alloc (.stack DEFAULT_CLONE_STACK_SIZE)
  match res with
  | .ok pid => some (.ok (pid, stack, flags), m)
  | .error e => (m.drops [stack]).map fun m => (.error e, m)

/-- broker/src/linux/process.rs:104-106: the next attempt, if the one before failed. -/
def orElseMem (r : Option (Except Nat (Nat × Nat × BitVec 32) × LMem)) (res : Except Nat Nat) (flags : BitVec 32) :
    Option (Except Nat (Nat × Nat × BitVec 32) × LMem) :=
  match r with
  | some (.error _, m) => tryCloneMem res flags m
  | r => r

/-- broker/src/linux/process.rs:54-141, from the parameters to the end; `t` has both ends of the pipe. The result has the
address of the new process' stack. -/
def startMem (p : Policy) (c : ProcessConfig) (at' : ConfigAt) (t : FdTable) (caps : Caps) (os : ProcOs)
    (w parentPipe childPipe : Nat) (m : LMem) : Option (ProcRun × Option Nat × LMem) :=
  let closed := (t.erase childPipe).erase parentPipe
  let (argv, m) := m.alloc (.ptrs (at'.argv.map some ++ [none]))
  let (envp, m) := m.alloc (.ptrs (at'.envp.map some ++ [none]))
  let (allowed, m) := m.alloc (.ints (p.inheritedHandles.map Int.ofNat))
  let (uidMap, m) := m.alloc (.bytes (idMap os.uid ++ [0]))
  let (gidMap, m) := m.alloc (.bytes (idMap os.gid ++ [0]))
  let (params, m) := m.alloc (.params
    { uidMap := uidMap, uidMapLen := (idMap os.uid).length, gidMap := gidMap, gidMapLen := (idMap os.gid).length,
      exe := at'.exe, argv := argv, envp := envp,
      allowed := allowed, allowedCount := p.inheritedHandles.length, errnoPipe := childPipe,
      stdin := c.stdin, stdout := c.stdout, stderr := c.stderr })
  match orElseMem (orElseMem (tryCloneMem os.clone1 (CLONE_NEWUSER ||| CLONE_NEWPID) m) os.clone2 CLONE_NEWPID) os.clone3 0#32 with
  | none => none
  | some (.error e, m) =>
    -- `params` is a leaked box
    (m.drops [gidMap, uidMap, allowed, envp, argv]).map fun m =>
      (⟨.error (.internalOsOperationFailed c!"clone() failed" e), closed, none⟩, none, m)
  | some (.ok (pid, stack, flags), atClone) =>
    (atClone.drops [params]).bind fun m =>
    ((childMemory flags atClone m).readParams params).bind fun ep =>
    let ending := cloneEntrypoint os.entry ep t caps
    let run : ProcRun := ⟨readErrno os w pid ending, closed, some ⟨pid, flags &&& CLONE_NEWPID ≠ 0#32, ending⟩⟩
    match run.result with
    | .error _ => (m.drops [stack, gidMap, uidMap, allowed, envp, argv]).map fun m => (run, none, m)
    | .ok _ => (m.drops [gidMap, uidMap, allowed, envp, argv]).map fun m => (run, some stack, m)

/-- broker/src/linux/process.rs:27-141 `OSSandboxedProcess::new`. The two descriptors of the pipe are first in a vector. -/
def newProcessMem (p : Policy) (c : ProcessConfig) (at' : ConfigAt) (t : FdTable) (caps : Caps) (os : ProcOs) (m : LMem) :
    Option (ProcRun × Option Nat × LMem) :=
  if c.argv = [] then some (⟨.error .missingCommandLine, t, none⟩, none, m)
  else
    let (fds, m) := m.alloc (.ints [-1, -1])
    (m.drops [fds]).bind fun m =>
    match os.pipe with
    | .error e => some (⟨.error (.internalOsOperationFailed c!"pipe() failed" e), t, none⟩, none, m)
    | .ok (r, w) =>
      let (parentPipe, t) := t.alloc ⟨r, 0#32⟩
      let (childPipe, t) := t.alloc ⟨w, 0#32⟩
      match setInheritable t childPipe false with
      | (.error e, t) => some (⟨.error (.ofHandle e), (t.erase childPipe).erase parentPipe, none⟩, none, m)
      | (.ok (), t) => startMem p c at' t caps os w parentPipe childPipe m

/-- broker/src/linux/process.rs:16-22: a process is dropped, with its stack. -/
def dropProcessMem (stack : Nat) (m : LMem) : Option LMem := m.drops [stack]

end Iris
