import Verif.Model.ProcessConfig
/-!
# The first code that runs in a worker process

Models linux-entrypoint/src/entry.rs and linux-entrypoint/src/capabilities.rs.
Every outcome of a system call is an input (`EntryOs`), except that the descriptor
table and the capability sets follow the kernel's rules. Log messages are in EntryLog.lean,
the maps of users and groups in EntryIds.lean: neither changes anything here.
-/
namespace Iris

/-- The capability sets of a process, one bit per capability. -/
structure Caps where
  permitted : BitVec 64
  effective : BitVec 64
  inheritable : BitVec 64
  ambient : BitVec 64
  bounding : BitVec 64
deriving DecidableEq, Repr

/-- linux-entrypoint/src/capabilities.rs:11 as a set. -/
def CAP_SETPCAP : BitVec 64 := 1#64 <<< 8

/-- Kernel: `capset`. The new sets may not exceed the old ones; the ambient set is cut
down to what is still permitted and inheritable. `none` is EPERM. -/
def sysCapset (c : Caps) (p e i : BitVec 64) : Option Caps :=
  if p &&& ~~~c.permitted = 0#64 ∧ e &&& ~~~p = 0#64
      ∧ i &&& ~~~(c.inheritable ||| (c.permitted &&& c.bounding)) = 0#64 then
    some { c with permitted := p, effective := e, inheritable := i, ambient := c.ambient &&& p &&& i }
  else none

/-- What the system decides in `drop_capabilities`: each call may fail. -/
structure CapOs where
  getProc : Bool
  getFlag : Bool
  setFlag : Bool
  raise : Bool
  /-- the number of capabilities the kernel knows -/
  known : Nat
  dropBound : Nat → Bool
  clear : Bool
  lower : Bool

/-- linux-entrypoint/src/capabilities.rs:91-97, from capability `cap` on: the loop ends at
the first failure, at the latest on the first capability the kernel does not know. -/
def dropBounding (os : CapOs) : (remaining cap : Nat) → Caps → Caps
  | 0, _, c => c
  | n + 1, cap, c =>
    if c.effective &&& CAP_SETPCAP = 0#64 ∨ os.dropBound cap = false then c
    else dropBounding os n (cap + 1) { c with bounding := c.bounding &&& ~~~(1#64 <<< cap) }

/-- linux-entrypoint/src/capabilities.rs:65-100: drop the bounding set. Returns the sets in
`state` too (permitted, effective, inheritable). -/
def dropBoundingSet (os : CapOs) (c : Caps) : Caps :=
  if os.getFlag = false then c
  else if c.permitted &&& CAP_SETPCAP = 0#64 then c
  else if os.setFlag = false then c
  else if os.raise = false then c
  else match sysCapset c c.permitted (c.effective ||| CAP_SETPCAP) c.inheritable with
    | none => c
    | some c => dropBounding os os.known 0 c

/-- linux-entrypoint/src/capabilities.rs:48-116 `drop_capabilities`. -/
def dropCapabilities (os : CapOs) (c : Caps) : Caps :=
  if os.getProc = false then c
  else
    let c := dropBoundingSet os c
    if os.clear = false then c
    else if os.lower = false then c
    else (sysCapset c 0#64 0#64 0#64).getD c

/-- linux-entrypoint/src/entry.rs:9-24 `EntrypointParameters`, without the debug
descriptor. -/
structure EntryParams where
  uidMap : Bytes
  gidMap : Bytes
  exe : Bytes
  argv : List Bytes
  envp : List Bytes
  allowed : List Nat
  errnoPipe : Nat
  stdin : Option Nat
  stdout : Option Nat
  stderr : Option Nat
deriving DecidableEq, Repr

/-- What the system decides while a file under /proc is opened, written and closed. -/
structure WriteOs where
  «open» : Except Nat Nat
  written : Bool

/-- What the system decides while the entry point runs. `true` is success. -/
structure EntryOs where
  noNewPrivs : Bool
  setgroups : WriteOs
  uidMap : WriteOs
  gidMap : WriteOs
  unshareIpc : Bool
  unshareNet : Bool
  unshareUts : Bool
  setHostname : Bool
  unshareCgroup : Bool
  unshareMount : Bool
  mountProc : Bool
  caps : CapOs
  /-- opening /proc/self/fd: an errno, or the open file -/
  openFds : Except Nat Nat
  fdopendir : Bool
  /-- `readdir` fails after that many entries -/
  readdirFails : Option Nat
  /-- `close` of a descriptor reports no error -/
  close : Nat → Bool
  /-- `dup` for standard stream 0, 1, 2 is not refused -/
  dup : Nat → Bool
  /-- opening /dev/null for standard stream 0, 1, 2 -/
  openNull : Nat → Except Nat Nat
  /-- `execve`: an errno if it fails -/
  execve : Option Nat
  /-- the capabilities the kernel would compute for the new program (from the user
  identity and the file's attributes) -/
  execGain : BitVec 64
  execEffective : BitVec 64

/-- Which of the broker's namespaces a process has left, whether the host name was
replaced and whether /proc was mounted again. -/
structure Isolation where
  ipc : Bool
  net : Bool
  uts : Bool
  hostname : Bool
  cgroup : Bool
  mount : Bool
  proc : Bool
deriving DecidableEq, Repr

/-- The process before it runs the worker program: its descriptors and capabilities,
whether no_new_privs is set, which namespaces it left, and the files it opened itself:
open file, path, flags. -/
structure EntryState where
  table : FdTable
  caps : Caps
  noNewPrivs : Bool
  isolation : Isolation
  opened : List (Nat × Str × BitVec 32)
deriving DecidableEq, Repr

/-- linux-entrypoint/src/entry.rs:47-62 (and 67-80, 83-96): open a file, write to it,
close it. Failures are logged only. The descriptor is the lowest free one. -/
def writeFile (os : WriteOs) (t : FdTable) : FdTable :=
  match os.open with
  | .error _ => t
  | .ok file =>
    let (fd, t) := t.alloc ⟨file, 0#32⟩
    t.erase fd

/-- An entry of a directory: its name, and whether it is a symbolic link. -/
structure DirEntry where
  name : Str
  isLink : Bool
deriving DecidableEq, Repr

/-- Kernel: the contents of /proc/self/fd: one link for each open descriptor, in any
order. The entries are produced before the descriptors are closed or are found open
later; nobody else opens descriptors, the process has one thread. -/
def procSelfFd (t : FdTable) : List DirEntry :=
  ⟨c!".", false⟩ :: ⟨c!"..", false⟩ :: t.map fun x => ⟨dec x.1, true⟩

/-- Kernel: `close`. A descriptor is closed even if an error is reported. -/
def sysClose (os : EntryOs) (t : FdTable) (fd : Int) : Bool × FdTable :=
  if 0 ≤ fd then
    match t.get fd.toNat with
    | some _ => (os.close fd.toNat, t.erase fd.toNat)
    | none => (false, t)
  else (false, t)

/-- linux-entrypoint/src/entry.rs:200-214: is `fd` kept? The test is inside the loop on
allowed descriptors. -/
def keeps (p : EntryParams) (fdsFd : Nat) (fd : Int) : Bool :=
  p.allowed.any fun (a : Nat) => fd ≤ 2 || fd == (a : Int) || fd == (fdsFd : Int) || fd == (p.errnoPipe : Int)

/-- linux-entrypoint/src/entry.rs:174-225: the loop on the entries. `n` is the number of
entries before `readdir` fails. `none` is `log_fatal!`. -/
def closeFds (os : EntryOs) (p : EntryParams) (fdsFd : Nat) (fails : Option Nat) :
    List DirEntry → FdTable → Option FdTable
  | [], t => if fails.isSome then none else some t
  | e :: es, t =>
    if fails = some 0 then none
    else
      let fails := fails.map (· - 1)
      if e.isLink = false then closeFds os p fdsFd fails es t
      else match parseI32 e.name with
        | none => none
        | some fd =>
          if keeps p fdsFd fd then closeFds os p fdsFd fails es t
          else match sysClose os t fd with
            | (false, _) => none
            | (true, t) => closeFds os p fdsFd fails es t

/-- linux-entrypoint/src/entry.rs:160-228: clean up the descriptors. -/
def cleanupFds (os : EntryOs) (p : EntryParams) (t : FdTable) : Option FdTable :=
  match os.openFds with
  | .error _ => none
  | .ok file =>
    let (fdsFd, t) := t.alloc ⟨file, FD_CLOEXEC⟩
    if os.fdopendir = false then none
    else (closeFds os p fdsFd os.readdirFails (procSelfFd t) t).map (·.erase fdsFd)

/-- linux-entrypoint/src/entry.rs:265-295 `setup_std_file_descriptor`. -/
def setupStd (os : EntryOs) (num : Nat) (replaceWith : Option Nat) (s : EntryState) :
    Option EntryState :=
  let t := s.table.erase num
  match replaceWith with
  | some fd =>
    match t.get fd with
    | none => none
    | some e =>
      if os.dup num = false then none
      else
        let (res, t) := t.alloc ⟨e.file, 0#32⟩
        if res ≠ num then none else some { s with table := t }
  | none =>
    match os.openNull num with
    | .error _ => none
    | .ok file =>
      let (res, t) := t.alloc ⟨file, 0#32⟩
      if res ≠ num then none
      else some { s with table := t, opened := (file, c!"/dev/null", O_RDONLY) :: s.opened }

/-- A running program: what it was started with, and the process it runs in. -/
structure Image where
  exe : Bytes
  argv : List Bytes
  envp : List Bytes
  table : FdTable
  caps : Caps
  noNewPrivs : Bool
  isolation : Isolation
  opened : List (Nat × Str × BitVec 32)
deriving DecidableEq, Repr

/-- Kernel: `execve` closes the descriptors marked so. -/
def closeOnExec (t : FdTable) : FdTable := t.filter fun x => x.2.flags &&& FD_CLOEXEC = 0#32

/-- Kernel: the capabilities after `execve` are computed from the user identity and the
file, but with no_new_privs the permitted set does not grow. The effective set is a
part of it, the inheritable set is kept, and the ambient set is a part of both. -/
def execCaps (os : EntryOs) (noNewPrivs : Bool) (c : Caps) : Caps :=
  let p := if noNewPrivs then (os.execGain ||| c.ambient) &&& c.permitted
    else os.execGain ||| c.ambient
  { c with permitted := p, effective := p &&& os.execEffective,
           ambient := c.ambient &&& p &&& c.inheritable }

/-- How the entry point ends: the program runs, `execve` failed (with the file and the
bytes written to report it), or it gave up. -/
inductive EntryEnd
  | started (img : Image)
  | execFailed (errno : Nat) (wrote : Option (Nat × Bytes))
  | gaveUp
deriving DecidableEq, Repr

/-- `u32::to_be_bytes`. -/
def beBytes (v : BitVec 32) : Bytes :=
  [(v.extractLsb' 24 8).toNat, (v.extractLsb' 16 8).toNat, (v.extractLsb' 8 8).toNat,
   (v.extractLsb' 0 8).toNat].map UInt8.ofNat

/-- linux-entrypoint/src/entry.rs:241-252: `execve`, or report the error. -/
def execOrReport (os : EntryOs) (p : EntryParams) (s : EntryState) : EntryEnd :=
  match os.execve with
  | none => .started ⟨p.exe, p.argv, p.envp, closeOnExec s.table, execCaps os s.noNewPrivs s.caps,
      s.noNewPrivs, s.isolation, s.opened⟩
  | some e => .execFailed e ((s.table.get p.errnoPipe).map fun x => (x.file, beBytes (BitVec.ofNat 32 e)))

/-- linux-entrypoint/src/entry.rs:99-153: leave the broker's namespaces. -/
def isolate (os : EntryOs) : Isolation :=
  { ipc := os.unshareIpc
    net := os.unshareNet
    uts := os.unshareUts
    hostname := if os.unshareUts then os.setHostname else false
    cgroup := os.unshareCgroup
    mount := os.unshareMount
    proc := if os.unshareMount then os.mountProc else false }

/-- linux-entrypoint/src/entry.rs:35-157: everything up to the cleanup of descriptors.
`none` is `log_fatal!`. The umask and the contents written to /proc have no effect on
what is modelled. -/
def prepare (os : EntryOs) (p : EntryParams) (t : FdTable) (caps : Caps) : Option EntryState :=
  if os.noNewPrivs = false then none
  else
    let t := writeFile os.setgroups t
    let t := if 0 < p.uidMap.length then writeFile os.uidMap t else t
    let t := if 0 < p.gidMap.length then writeFile os.gidMap t else t
    some ⟨t, dropCapabilities os.caps caps, true, isolate os, []⟩

/-- linux-entrypoint/src/entry.rs:29-253 `clone_entrypoint`. -/
def cloneEntrypoint (os : EntryOs) (p : EntryParams) (t : FdTable) (caps : Caps) : EntryEnd :=
  match (prepare os p t caps).bind fun s =>
    (cleanupFds os p s.table).bind fun t =>
    (setupStd os 0 p.stdin { s with table := t }).bind fun s =>
    (setupStd os 1 p.stdout s).bind fun s =>
    setupStd os 2 p.stderr s with
  | none => .gaveUp
  | some s => execOrReport os p s

end Iris
