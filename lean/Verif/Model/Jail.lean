import Verif.Model.Files
import Verif.Model.Seccomp
/-!
# A worker under its filter, and the rest of the machine

What a locked down Linux worker (worker/src/linux/lockdown.rs:142-173) can do outside of itself: what the system calls do which the
filter built by broker/src/linux/seccomp.rs:105-211 lets through, and what the broker does for it. This is a model of the kernel, from
the manual pages of section 2, and a pessimistic one: a call which is not described here may do anything.

Simplifications: descriptors a worker has are never closed; whether the kernel refuses a call for lack of permissions is not
modelled, all calls may succeed.
-/
namespace Iris

/-- What system calls find in the worker's memory. -/
structure WorkerMemory where
  /-- the string at an address -/
  str : BitVec 64 → Str
  /-- the name of a socket in the message header at an address (`msg_name`), if there is one -/
  msgName : BitVec 64 → Option Str
  /-- the process in the `struct f_owner_ex` at an address -/
  owner : BitVec 64 → Int

/-- What a worker can get at. -/
inductive Reached
  /-- it was told whether there is such a file, whose it is, how large, and when it was changed -/
  | told (path : Str)
  /-- a message was put into the socket of this name -/
  | message (socket : Str)
  /-- a signal was sent, or will be when the worker wants -/
  | signal (pid : Int)
  /-- anything else: a program is run, a connection is made, the clock is set -/
  | other (what : Nat)
deriving DecidableEq, Repr

/-- The files, whether the worker has a datagram socket, and what it got at. -/
structure JailState where
  files : FileState
  dgram : Bool
  reached : List Reached

/-- The calls which are known to act only on what the worker already has: itself, its memory, its descriptors and new objects without
names. Each may also do what `KCall` says of it. -/
def tameCalls : List String :=
  ["read", "write", "readv", "writev", "lseek", "_llseek", "close", "close_range", "dup", "dup2", "dup3", "fcntl", "fstat", "fstat64",
   "newfstatat", "ftruncate", "fsync", "fdatasync", "readdir", "sendfile", "tee", "select", "_newselect", "poll",
   "recvmsg", "sendmsg", "accept", "accept4", "listen", "shutdown", "getsockname", "getpeername", "getsockopt",
   "memfd_create", "pipe", "socketpair", "timerfd_create", "timerfd_gettime", "timerfd_settime",
   "brk", "munmap", "mremap", "msync", "mincore", "madvise", "cacheflush", "mmap", "mmap2", "mprotect",
   "exit", "exit_group", "restart_syscall", "futex", "sched_yield", "nice", "pause", "arch_prctl", "getpid", "gettid", "getuid",
   "getuid32", "getresuid", "getresuid32", "getresgid", "getresgid32", "uname", "getrandom",
   "sigaltstack", "rt_sigreturn", "rt_sigprocmask", "rt_sigaction", "kill", "tgkill",
   "alarm", "nanosleep", "clock_nanosleep", "clock_gettime", "clock_gettime64", "clock_getres", "time", "times", "getitimer",
   "setitimer", "timer_create", "timer_delete", "timer_getoverrun", "timer_gettime", "timer_settime"]

/-- What a system call can do to the rest of the machine, apart from writing to files the worker has open (`JailRun.writes`). -/
inductive KCall (mem : WorkerMemory) : String → Seccomp.Args → JailState → JailState → Prop
  /-- A call may do nothing outside. -/
  | nothing (name : String) (args : Seccomp.Args) (st : JailState) : KCall mem name args st st
  /-- `ioctl(fd, TCGETS)` tells the settings of a terminal; other requests may do anything. -/
  | control (args : Seccomp.Args) (st st' : JailState) (h : (Bpf.lo (args 1)) ≠ 0x5401#32) : KCall mem "ioctl" args st st'
  /-- stat(2): a path is looked up, unless it is empty. -/
  | stat (args : Seccomp.Args) (st : JailState) (h : mem.str (args 1) ≠ []) :
    KCall mem "newfstatat" args st { st with reached := st.reached ++ [.told (mem.str (args 1))] }
  /-- socketpair(2), of the family `AF_UNIX` and the type `SOCK_DGRAM`. -/
  | pair (args : Seccomp.Args) (st : JailState) (hf : Bpf.lo (args 0) = 1#32) (ht : Bpf.lo (args 1) &&& 0xf#32 = 2#32) :
    KCall mem "socketpair" args st { st with dgram := true }
  /-- sendmsg(2): a datagram goes to the socket named in the message, even when the socket is connected to another. -/
  | send (args : Seccomp.Args) (st : JailState) (to : Str) (hd : st.dgram = true) (hn : mem.msgName (args 1) = some to) :
    KCall mem "sendmsg" args st { st with reached := st.reached ++ [.message to] }
  /-- fcntl(2): `F_SETOWN` names the process which gets a signal (any, by `F_SETSIG`) when something can be read. -/
  | setOwner (args : Seccomp.Args) (st : JailState) (h : Bpf.lo (args 1) = 8#32) :
    KCall mem "fcntl" args st { st with reached := st.reached ++ [.signal (Bpf.lo (args 2)).toInt] }
  /-- fcntl(2): the same by `F_SETOWN_EX`. -/
  | setOwnerEx (args : Seccomp.Args) (st : JailState) (h : Bpf.lo (args 1) = 15#32) :
    KCall mem "fcntl" args st { st with reached := st.reached ++ [.signal (mem.owner (args 2))] }
  /-- kill(2) and tgkill(2). -/
  | kill (name : String) (args : Seccomp.Args) (st : JailState) (h : name ∈ ["kill", "tgkill"]) :
    KCall mem name args st { st with reached := st.reached ++ [.signal (Bpf.lo (args 0)).toInt] }
  /-- Anything else may do anything. -/
  | wild (name : String) (args : Seccomp.Args) (st st' : JailState) (h : name ∉ tameCalls) (hi : name ≠ "ioctl") :
    KCall mem name args st st'

/-- A call the worker made. -/
structure MadeCall where
  data : Bpf.Data
  mem : WorkerMemory

/-- A worker under the filter `p`, with `own`, while the broker does `acts` for it. `isCall` says which call a number is.
A call which the filter does not allow does nothing: the worker gets `SIGSYS` or is killed. -/
inductive JailRun (isCall : Bpf.Data → String → Prop) (p : List Bpf.Insn) (fs : FileTree) (own : List (Nat × BitVec 32)) :
    List Action → List MadeCall → JailState → Prop
  | start (dgram : Bool) : JailRun isCall p fs own [] [] ⟨⟨fs, own⟩, dgram, []⟩
  /-- the broker opens a file for the worker -/
  | opens (acts : List Action) (calls : List MadeCall) (st : JailState) (path : Str) (flags mode : BitVec 32) (refuse : Option Nat)
    (h : JailRun isCall p fs own acts calls st) :
    JailRun isCall p fs own (acts ++ [.opened path flags mode]) calls { st with files := st.files.open path flags refuse }
  /-- the broker calls a log function -/
  | notifies (acts : List Action) (calls : List MadeCall) (st : JailState) (n : Notification Request)
    (h : JailRun isCall p fs own acts calls st) : JailRun isCall p fs own (acts ++ [.notified n]) calls st
  /-- the broker answers -/
  | sends (acts : List Action) (calls : List MadeCall) (st : JailState) (resp : IPCResponse) (files : List Nat)
    (h : JailRun isCall p fs own acts calls st) : JailRun isCall p fs own (acts ++ [.sent resp files]) calls st
  /-- the worker writes to a file it has, by a system call or in memory the file is mapped to -/
  | writes (acts : List Action) (calls : List MadeCall) (st : JailState) (i : Nat) (flags : BitVec 32) (content : Bytes)
    (h : JailRun isCall p fs own acts calls st) (ho : (i, flags) ∈ st.files.opened) (hp : flags &&& O_PATH = 0#32)
    (hw : flags &&& 3#32 = 1#32 ∨ flags &&& 3#32 = 2#32) :
    JailRun isCall p fs own acts calls { st with files := st.files.write i content }
  /-- the worker makes a system call which the filter allows -/
  | calls (acts : List Action) (calls : List MadeCall) (st st' : JailState) (d : Bpf.Data) (mem : WorkerMemory) (name : String)
    (h : JailRun isCall p fs own acts calls st) (hc : isCall d name) (ha : Bpf.run p d = some 0x7fff0000#32)
    (hk : KCall mem name d.args st st') : JailRun isCall p fs own acts (calls ++ [⟨d, mem⟩]) st'
  /-- the worker makes a system call which the filter does not allow -/
  | trapped (acts : List Action) (calls : List MadeCall) (st : JailState) (d : Bpf.Data) (mem : WorkerMemory)
    (h : JailRun isCall p fs own acts calls st) (ha : Bpf.run p d ≠ some 0x7fff0000#32) :
    JailRun isCall p fs own acts (calls ++ [⟨d, mem⟩]) st

end Iris
