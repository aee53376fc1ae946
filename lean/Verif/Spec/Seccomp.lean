import Verif.Model.Lockdown
import Verif.Model.Process
/-!
# What the system call filter is supposed to do
-/
namespace Iris.Spec
open Iris.Seccomp

/-- The system calls a worker may always make, by what they act on. Three of them can be made to reach further, `newfstatat`,
`sendmsg` and `fcntl`: see C137. -/
def unrestricted : List String :=
  -- descriptors it already has
  ["read", "write", "readv", "writev", "lseek", "_llseek", "close", "close_range", "dup", "dup2",
   "dup3", "fcntl", "fstat", "fstat64", "newfstatat", "ftruncate", "fsync", "fdatasync", "readdir",
   "sendfile", "tee", "select", "_newselect", "poll",
  -- sockets it already has
   "recvmsg", "sendmsg", "accept", "accept4", "listen", "shutdown", "getsockname", "getpeername",
   "getsockopt",
  -- new anonymous objects
   "memfd_create", "pipe", "socketpair", "timerfd_create", "timerfd_gettime", "timerfd_settime",
  -- its own memory
   "brk", "munmap", "mremap", "msync", "mincore", "madvise", "cacheflush",
  -- itself and its threads
   "exit", "exit_group", "restart_syscall", "futex", "sched_yield", "nice", "pause", "arch_prctl",
   "getpid", "gettid", "getuid", "getuid32", "getresuid", "getresuid32", "getresgid",
   "getresgid32", "uname", "getrandom",
  -- its signals
   "sigaltstack", "rt_sigreturn", "rt_sigprocmask", "rt_sigaction",
  -- time
   "alarm", "nanosleep", "clock_nanosleep", "clock_gettime", "clock_gettime64", "clock_getres",
   "time", "times", "getitimer", "setitimer", "timer_create", "timer_delete", "timer_getoverrun",
   "timer_gettime", "timer_settime"]

/-- System calls whose purpose is to reach outside the worker: none may run. -/
def outside : List String :=
  -- the file system by path
  ["open", "openat", "openat2", "creat", "open_by_handle_at", "name_to_handle_at", "access",
   "faccessat", "faccessat2", "stat", "lstat", "stat64", "lstat64", "fstatat64", "statx",
   "readlink", "readlinkat", "link", "linkat", "symlink", "symlinkat", "unlink", "unlinkat",
   "rename", "renameat", "renameat2", "mkdir", "mkdirat", "rmdir", "mknod", "mknodat", "chmod",
   "fchmodat", "chown", "lchown", "fchownat", "truncate", "utimensat", "chdir", "fchdir", "chroot",
   "getdents", "getdents64", "getcwd", "inotify_add_watch", "fanotify_mark",
  -- mounts and namespaces
   "mount", "umount2", "pivot_root", "unshare", "setns", "fsopen", "fsmount", "move_mount",
  -- programs and processes
   "execve", "execveat", "fork", "vfork", "clone", "clone3", "ptrace", "process_vm_readv",
   "process_vm_writev", "pidfd_open", "pidfd_getfd", "pidfd_send_signal", "kcmp",
   "tkill", "rt_sigqueueinfo", "rt_tgsigqueueinfo", "setpriority", "sched_setaffinity", "prlimit64",
   "wait4", "waitid",
  -- privileges
   "setuid", "setgid", "setresuid", "setresgid", "setgroups", "capset", "prctl", "seccomp",
   "personality", "keyctl", "add_key", "request_key", "bpf", "perf_event_open",
  -- the network and other processes' objects
   "socket", "connect", "bind", "sendto", "recvfrom", "setsockopt", "shmget", "shmat", "msgget",
   "semget", "mq_open", "io_uring_setup", "io_uring_enter", "userfaultfd",
  -- executable memory by other means
   "pkey_mprotect", "remap_file_pages", "uselib", "modify_ldt",
  -- the machine
   "reboot", "kexec_load", "init_module", "finit_module", "delete_module", "iopl", "ioperm",
   "sethostname", "settimeofday", "clock_settime", "swapon", "swapoff", "syslog", "acct", "quotactl"]

/-- Only the bits 0 (read), 1 (write), 3, 4, 24 and 25 may be set: in particular not bit 2,
PROT_EXEC. -/
def PlainProtection (prot : BitVec 64) : Prop :=
  ∀ i, i < 64 → prot.getLsbD i = true → i = 0 ∨ i = 1 ∨ i = 3 ∨ i = 4 ∨ i = 24 ∨ i = 25

/-- Where the kernel finds the protection of `mmap`, `mmap2` and `mprotect`: in the third
argument, except for the `mmap` of 32-bit x86 (number 90), whose only argument is the address of
a structure with the protection as its third word. `mem` is the 32-bit words in memory. -/
def protectionOf (arch : Arch) (name : String) (args : Args) (mem : BitVec 32 → BitVec 32) :
    BitVec 64 :=
  if arch = .x86 ∧ name = "mmap" then (mem (Bpf.lo (args 0) + 8#32)).setWidth 64 else args 2

/-- The process a `kill` or `tgkill` is aimed at: the low half of the first argument, a `pid_t`. -/
def signalTarget (args : Args) : Int := (Bpf.lo (args 0)).toInt

/-- A first argument passed as the C library does: a `pid_t`, sign-extended. -/
def ProperPid (args : Args) : Prop := args 0 = (Bpf.lo (args 0)).signExtend 64

/-- A process's own number: 1 in a new PID namespace. -/
def ownPid (c : Child) : Int := if c.pidNs then 1 else c.pid

/-- A program starts by loading a word of the system call into the accumulator, as those
libseccomp generates do (they start with the architecture). -/
def BeginsWithLoad (p : List Bpf.Insn) : Prop :=
  ∃ i rest, p = i :: rest ∧ i.code = 0x20#16

/-- The `arch` word of `seccomp_data` (x32 calls have the one of x86_64). -/
def auditArch : Arch → BitVec 32
  | .x86 => 0x40000003#32
  | .x86_64 => 0xC000003E#32
  | .x32 => 0xC000003E#32

/-- What a decision is to the kernel: `SECCOMP_RET_ALLOW`, `SECCOMP_RET_TRAP`. -/
def code : Decision → BitVec 32
  | .allow => 0x7fff0000#32
  | .trap => 0x00030000#32

/-- The system call `name` of an architecture, as the filter sees it. -/
def IsCall (numbers : Arch → String → Option (BitVec 32)) (d : Bpf.Data) (arch : Arch)
    (name : String) (args : Args) : Prop :=
  d.arch = auditArch arch ∧ numbers arch name = some d.nr ∧ d.args = args

/-- libseccomp's promise: an exported program starts with a load and implements the rules, for
the numbering of system calls of each architecture that could be added. -/
def Faithful (numbers : Arch → String → Option (BitVec 32)) (lib : Lib) : Prop :=
  ∀ rules p, lib.exportBpf rules = some p →
    BeginsWithLoad p ∧
    ∀ d arch name args, lib.addArch arch = true → IsCall numbers d arch name args →
      Bpf.run p d = some (code (decision rules name args))

/-- Neither half of the placeholder occurs in a filter. -/
def NoPlaceholder (f : Bytes) : Prop :=
  ¬ [0xDE, 0xC0, 0xDE, 0xC0] <:+: f ∧ ¬ [0xFE, 0xCA, 0xFE, 0xCA] <:+: f

end Iris.Spec
