import Verif.Model.Broker
/-!
# The worker's system call interception on Linux

Models worker/src/linux/lockdown.rs:37-48 and 186-419: the SIGSYS handler and the functions
it calls. `isize` is 64 bits (on 32-bit builds the codes that occur, descriptors and
small negative numbers, are the same).
-/
namespace Iris

/-- The environment during one trap: what the system and the broker do. -/
structure WorkerIo where
  /-- a failure of `sendmsg` -/
  sendError : Option Nat
  /-- what is received on the channel after sending -/
  incoming : Incoming
  /-- how many received descriptors can be installed -/
  canInstall : Nat
  /-- `std::env::current_dir()` as a (lossy) string, `none` if it fails -/
  cwd : Option Str
  /-- `fstat` or `fchdir` on a descriptor: an errno, or success -/
  onFd : Nat → Option Nat
  /-- the kernel's result when a system call is run again (audit mode) -/
  rerun : BitVec 64 → Args6 → BitVec 64

/-- How a handler ends: a value for the program's result register, a panic (the
worker aborts: a panic cannot leave an `extern "C"` function), or a memory fault. -/
inductive Ret
  | code (v : BitVec 64)
  | panic
  | fault
deriving DecidableEq, Repr

/-- A handled trap: the worker's new descriptor table, what was sent to the broker,
the result, and the system call that was run again, if any. -/
structure Handled where
  table : FdTable
  sent : Option IPCRequest
  ret : Ret
  reran : Option (BitVec 64 × Args6) := none
deriving DecidableEq

/-- worker/src/linux/lockdown.rs:292-303 `send_recv`; `none` is one of its three
`expect` panics. -/
def sendRecv (abi : Abi) (t : FdTable) (req : IPCRequest) (io : WorkerIo) :
    FdTable × Option (IPCResponse × Option Nat) :=
  match channelSend abi t (sendRequest req) none io.sendError with
  | .error _ => (t, none)
  | .ok _ =>
    match channelRecv abi decResponse IPC_MESSAGE_MAX_SIZE io.canInstall t io.incoming with
    | (t, .ok (some r)) => (t, some r)
    | (t, _) => (t, none)

/-- worker/src/linux/lockdown.rs:37-48 `get_fd_for_path_with_perms`: a descriptor, an
error code, or `none` for a panic. -/
def getFdForPath (abi : Abi) (t : FdTable) (path : Str) (flags : BitVec 32) (io : WorkerIo) :
    FdTable × Option (Except (BitVec 64) Nat) :=
  match sendRecv abi t (.openFile path flags) io with
  | (t, some (.syscallResult _, some fd)) => (t, some (.ok fd))
  | (t, some (.syscallResult code, none)) => if code.msb then (t, some (.error code)) else (t, none)
  | (t, _) => (t, none)

/-- `str::ends_with(c: char)`. -/
def endsWith (c : Char) (s : Str) : Bool := decide (s.getLast? = some c)

/-- worker/src/linux/lockdown.rs:311-324: the path sent to the broker. -/
def resolvePath (cwd : Option Str) (path : Str) : Str :=
  if !startsWith '/' path then
    let abspath := cwd.getD []
    (if !endsWith '/' abspath then abspath ++ ['/'] else abspath) ++ path
  else path

/-- worker/src/linux/lockdown.rs:305-337 `handle_openat`. `into_raw` keeps the
descriptor open. -/
def handleOpenat (abi : Abi) (t : FdTable) (path : Str) (flags : BitVec 32) (io : WorkerIo) :
    Handled :=
  let req := .openFile (resolvePath io.cwd path) flags
  match sendRecv abi t req io with
  | (t, some (.syscallResult _, some fd)) => ⟨t, some req, .code (BitVec.ofNat 64 fd), none⟩
  | (t, some (.syscallResult code, none)) => ⟨t, some req, .code code, none⟩
  | (t, _) => ⟨t, some req, .panic, none⟩

/-- worker/src/linux/lockdown.rs:339-345 `handle_access`: the descriptor is dropped. -/
def handleAccess (abi : Abi) (t : FdTable) (path : Str) (mode : BitVec 32) (io : WorkerIo) :
    Handled :=
  let req := .openFile path mode
  match getFdForPath abi t path mode io with
  | (t, some (.ok fd)) => ⟨t.erase fd, some req, .code 0#64, none⟩
  | (t, some (.error e)) => ⟨t, some req, .code e, none⟩
  | (t, none) => ⟨t, some req, .panic, none⟩

/-- worker/src/linux/lockdown.rs:347-365 `handle_stat` and 367-381 `handle_chdir`:
both get an O_PATH descriptor, call `fstat` or `fchdir` on it and drop it. -/
def handleByPath (abi : Abi) (t : FdTable) (path : Str) (io : WorkerIo) : Handled :=
  let req := .openFile path O_PATH
  match getFdForPath abi t path O_PATH io with
  | (t, some (.ok fd)) =>
    match io.onFd fd with
    | some e => ⟨t.erase fd, some req, .code (negErrno e), none⟩
    | none => ⟨t.erase fd, some req, .code 0#64, none⟩
  | (t, some (.error e)) => ⟨t, some req, .code e, none⟩
  | (t, none) => ⟨t, some req, .panic, none⟩

/-- worker/src/linux/lockdown.rs:383-419 `handle_syscall`. -/
def handleSyscall (abi : Abi) (audit : Bool) (t : FdTable) (nb : BitVec 64) (args : Args6)
    (ip : BitVec 64) (io : WorkerIo) : Handled :=
  let req := .syscall nb args ip
  let finish (t : FdTable) (response : BitVec 64) : Handled :=
    if audit && response == negErrno ENOSYS then ⟨t, some req, .code (io.rerun nb args), some (nb, args)⟩
    else ⟨t, some req, .code response, none⟩
  match sendRecv abi t req io with
  | (t, some (.syscallResult _, some fd)) => finish t (BitVec.ofNat 64 fd)
  | (t, some (.syscallResult code, none)) => finish t code
  | (t, _) => ⟨t, some req, .panic, none⟩

/-- The registers a trap delivers (worker/src/linux/arch/x86_64/seccomp.rs:41-49). -/
structure Regs where
  nr : BitVec 64
  args : Args6
  ip : BitVec 64
deriving DecidableEq

/-- System call numbers (x86_64). -/
def SYS_open : BitVec 64 := 2#64
def SYS_stat : BitVec 64 := 4#64
def SYS_access : BitVec 64 := 21#64
def SYS_chdir : BitVec 64 := 80#64
def SYS_openat : BitVec 64 := 257#64
def AT_FDCWD : BitVec 32 := -100#32

/-- The worker's memory: the bytes of the C string at an address (its NUL excluded),
`none` if the address cannot be read. -/
abbrev Memory := BitVec 64 → Option Bytes

/-- worker/src/linux/lockdown.rs:186-192 `read_string_from_ptr`: `CStr::from_ptr` then
`to_string_lossy`. `replace` is what the latter makes of invalid UTF-8. -/
def readString (replace : Bytes → Str) (mem : Memory) (ptr : BitVec 64) : Option Str :=
  (mem ptr).map fun b => (fromUtf8 b).getD (replace b)

/-- worker/src/linux/lockdown.rs:198-290 `sigsys_handler` from line 238 on (the signal
checks and the reentrancy flag are in Model/Sigsys.lean). `a as i32` keeps the low half
of a register. -/
def handleTrap (abi : Abi) (audit : Bool) (replace : Bytes → Str) (mem : Memory) (t : FdTable)
    (r : Regs) (io : WorkerIo) : Handled :=
  let low (v : BitVec 64) : BitVec 32 := v.setWidth 32
  let withPath (ptr : BitVec 64) (k : Str → Handled) : Handled :=
    match readString replace mem ptr with
    | some path => k path
    | none => ⟨t, none, .fault, none⟩
  if r.nr = SYS_access then withPath r.args.a0 fun path => handleAccess abi t path (low r.args.a1) io
  else if r.nr = SYS_stat then withPath r.args.a0 fun path => handleByPath abi t path io
  else if r.nr = SYS_open then
    withPath r.args.a0 fun path => handleOpenat abi t path (low r.args.a1) io
  else if r.nr = SYS_openat then
    if low r.args.a0 = AT_FDCWD then
      withPath r.args.a1 fun path => handleOpenat abi t path (low r.args.a2) io
    else match mem r.args.a1 with
      | none => ⟨t, none, .fault, none⟩
      | some b =>
        if b.head? = some 47 then
          withPath r.args.a1 fun path => handleOpenat abi t path (low r.args.a2) io
        else handleSyscall abi audit t r.nr r.args r.ip io
  else if r.nr = SYS_chdir then withPath r.args.a0 fun path => handleByPath abi t path io
  else handleSyscall abi audit t r.nr r.args r.ip io

/-- The reply in an action of the broker. -/
def replyOf : Action → Option (IPCResponse × List Nat)
  | .sent resp files => some (resp, files)
  | _ => none

/-- What reaches the worker after the broker took one step: its reply if it sent one,
else the end of the stream. -/
def brokerReply (before after : Broker) : Incoming :=
  match (after.trace.drop before.trace.length).findSome? replyOf with
  | some (resp, files) => .datagram ⟨encResponse resp, files⟩
  | none => .eof

/-- Worker and broker together: a handler (as a function of what is received) runs
with the broker answering the request it sends. -/
def withBroker [Target] (abi : Abi) (p : Policy) (b : Broker) (os : OsChoice)
    (handler : Incoming → Handled) : Handled × Broker :=
  match (handler .eof).sent with
  | none => (handler .eof, b)
  | some req =>
    match sendRequest req with
    | none => (handler .eof, b)
    | some data =>
      let b' := b.step abi p (.datagram ⟨data, []⟩) os
      (handler (brokerReply b b'), b')

end Iris
