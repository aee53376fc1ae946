import Verif.Model.Postcard
/-!
# The parts of the Linux kernel the code talks to

Nothing here is code from /repo: descriptor tables, `fcntl`, `SOCK_SEQPACKET`
datagrams and `SCM_RIGHTS`. All of it is in the trusted base (DESIGN.md).
-/
namespace Iris

/-- An open file (identified by a number) and the descriptor flags
(`FD_CLOEXEC` is bit 0). -/
structure FdEntry where
  file : Nat
  flags : BitVec 32
deriving DecidableEq, Repr

/-- A process's descriptor table. -/
abbrev FdTable := List (Nat × FdEntry)

def FdTable.get (t : FdTable) (fd : Nat) : Option FdEntry :=
  match t with
  | [] => none
  | (n, e) :: rest => if n = fd then some e else FdTable.get rest fd

/-- `close` of an open descriptor. -/
def FdTable.erase (t : FdTable) (fd : Nat) : FdTable := t.filter fun x => x.1 ≠ fd

def FdTable.set (t : FdTable) (fd : Nat) (e : FdEntry) : FdTable := (fd, e) :: t.erase fd

/-- The lowest descriptor not in use: what `open`, `dup`, ... return. -/
def FdTable.lowestFree (t : FdTable) : Nat :=
  ((List.range (t.length + 1)).find? fun n => (t.get n).isNone).getD 0

/-- Allocate the lowest free descriptor. -/
def FdTable.alloc (t : FdTable) (e : FdEntry) : Nat × FdTable :=
  (t.lowestFree, (t.lowestFree, e) :: t)

def FD_CLOEXEC : BitVec 32 := 1#32
def EBADF : Nat := 9

/-- `fcntl(fd, F_GETFD)`. -/
def sysGetFd (t : FdTable) (fd : Nat) : Except Nat (BitVec 32) :=
  match t.get fd with
  | some e => .ok e.flags
  | none => .error EBADF
/-- `fcntl(fd, F_SETFD, flags)`. -/
def sysSetFd (t : FdTable) (fd : Nat) (flags : BitVec 32) : Except Nat FdTable :=
  match t.get fd with
  | some e => .ok (t.set fd { e with flags := flags })
  | none => .error EBADF

/-- The two data models the code is built for: x86_64 and i686. -/
inductive Abi | lp64 | ilp32
deriving DecidableEq, Repr

/-- `sizeof(size_t)`. -/
def Abi.word : Abi → Nat
  | .lp64 => 8
  | .ilp32 => 4
/-- `sizeof(struct cmsghdr)`: `size_t cmsg_len; int cmsg_level; int cmsg_type`. -/
def Abi.cmsgHdr (a : Abi) : Nat := a.word + 8
/-- `CMSG_ALIGN`. -/
def Abi.align (a : Abi) (n : Nat) : Nat := (n + a.word - 1) / a.word * a.word
/-- `CMSG_SPACE(len)`. -/
def Abi.cmsgSpace (a : Abi) (len : Nat) : Nat := a.align len + a.align a.cmsgHdr

/-- `n` bytes, least significant first. -/
def leBytes : Nat → Nat → Bytes
  | 0, _ => []
  | n + 1, v => UInt8.ofNat (v % 256) :: leBytes n (v / 256)
def ofLe : Bytes → Nat
  | [] => 0
  | b :: bs => b.toNat + 256 * ofLe bs

/-- A datagram in flight: its bytes and the open files attached to it. -/
structure Datagram where
  data : Bytes
  files : List Nat
deriving DecidableEq, Repr

def SOL_SOCKET : Nat := 1
def SCM_RIGHTS : Nat := 1

/-- net/core/scm.c `scm_fp_copy`: look up each descriptor of the array. -/
def lookupFds (t : FdTable) : List Nat → Except Nat (List Nat)
  | [] => .ok []
  | fd :: fds =>
    match t.get fd with
    | none => .error EBADF
    | some e => (lookupFds t fds).map (e.file :: ·)

/-- The 32-bit integers of an array of bytes. -/
def ints : Bytes → List Nat
  | a :: b :: c :: d :: rest => ofLe [a, b, c, d] :: ints rest
  | _ => []

/-- net/core/scm.c `__scm_send` for a control buffer holding at most one control
message: the number of descriptors is `(cmsg_len - sizeof(cmsghdr)) / 4`.
EINVAL (22) if `cmsg_len` is out of bounds or the message is not SCM_RIGHTS. A
negative descriptor (top bit set) is not in the table. -/
def scmSend (abi : Abi) (t : FdTable) (control : Bytes) : Except Nat (List Nat) :=
  if control.length < abi.cmsgHdr then .ok []
  else
    let cmsgLen := ofLe (control.take abi.word)
    let level := ofLe ((control.drop abi.word).take 4)
    let ctype := ofLe ((control.drop (abi.word + 4)).take 4)
    if cmsgLen < abi.cmsgHdr ∨ control.length < cmsgLen then .error 22
    else if level ≠ SOL_SOCKET ∨ ctype ≠ SCM_RIGHTS then .error 22
    else
      let n := (cmsgLen - abi.cmsgHdr) / 4
      lookupFds t (ints ((control.drop abi.cmsgHdr).take (4 * n)))

/-- `sendmsg` on a connected seqpacket socket, when the kernel has no other
reason to fail. -/
def sysSendmsg (abi : Abi) (t : FdTable) (data control : Bytes) : Except Nat Datagram :=
  (scmSend abi t control).map fun files => ⟨data, files⟩

/-- net/core/scm.c `scm_detach_fds` with `MSG_CMSG_CLOEXEC`: install the files
one by one. -/
def installAll (t : FdTable) : List Nat → FdTable × List Nat
  | [] => (t, [])
  | f :: fs =>
    let (fd, t) := t.alloc ⟨f, FD_CLOEXEC⟩
    let (t, fds) := installAll t fs
    (t, fd :: fds)

/-- A control message as user space sees it after `recvmsg`. -/
structure Cmsg where
  level : Nat
  ctype : Nat
  fds : List Nat
deriving DecidableEq, Repr

/-- What `recvmsg` returned. -/
structure RecvMsg where
  bytes : Bytes
  cmsgs : List Cmsg
  trunc : Bool
  ctrunc : Bool
deriving DecidableEq, Repr

/-- How many descriptors fit in a control buffer of `controlLen` bytes
(`scm_max_fds`). -/
def maxFds (abi : Abi) (controlLen : Nat) : Nat := (controlLen - abi.cmsgHdr) / 4

/-- One control message if at least one descriptor was installed. -/
def rightsCmsg : List Nat → List Cmsg
  | [] => []
  | fd :: fds => [⟨SOL_SOCKET, SCM_RIGHTS, fd :: fds⟩]

/-- `recvmsg` of one datagram into a buffer of `iovLen` bytes and a control
buffer of `controlLen` bytes. `canInstall` is how many descriptors the process
may still open (RLIMIT_NOFILE). What does not fit is dropped and flagged. -/
def sysRecvmsg (abi : Abi) (canInstall : Nat) (t : FdTable) (iovLen controlLen : Nat)
    (d : Datagram) : FdTable × RecvMsg :=
  let (t, fds) := installAll t (d.files.take (min canInstall (maxFds abi controlLen)))
  (t, { bytes := d.data.take iovLen
        cmsgs := rightsCmsg fds
        trunc := decide (iovLen < d.data.length)
        ctrunc := decide (fds.length < d.files.length) })

end Iris
