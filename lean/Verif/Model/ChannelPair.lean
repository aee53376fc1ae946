import Verif.Model.Channel
/-!
# Both ends of a Linux channel, in any number of processes

Models ipc/src/linux/channel.rs:16-50 and the use of `send` and `recv` (Model/Channel.lean) on sockets
that are connected to each other. The sockets, what is queued in them and which open files are still
held by somebody are the kernel's (trusted base).
-/
namespace Iris

/-- One end of a `socketpair`: the open file at the other end, and the datagrams waiting to be read
from this end. -/
structure Sock where
  peer : Nat
  queue : List Datagram
deriving DecidableEq, Repr

/-- The descriptor tables of the processes, the sockets among the open files, and the first open file
number never used. -/
structure SockNet where
  tables : Nat → FdTable
  socks : Nat → Option Sock
  next : Nat

def SockNet.setTable (s : SockNet) (pid : Nat) (t : FdTable) : SockNet :=
  { s with tables := fun p => if p = pid then t else s.tables p }

def SockNet.setSock (s : SockNet) (f : Nat) (k : Sock) : SockNet :=
  { s with socks := fun g => if g = f then some k else s.socks g }

/-- The kernel keeps an open file as long as a process has a descriptor on it, or it is attached to a
datagram which can still be received (net/unix/garbage.c frees those which cannot). -/
inductive SockNet.Live (s : SockNet) : Nat → Prop
  | held (pid fd : Nat) (e : FdEntry) : (s.tables pid).get fd = some e → s.Live e.file
  | queued (f : Nat) (k : Sock) (d : Datagram) (g : Nat) :
      s.Live f → s.socks f = some k → d ∈ k.queue → g ∈ d.files → s.Live g

/-- `socketpair(AF_UNIX, SOCK_SEQPACKET, 0, _)` when it succeeds: two descriptors without flags on two
new open files, each the peer of the other. -/
def sysSocketpair (s : SockNet) (pid : Nat) : SockNet × (Nat × Nat) :=
  let (fd0, t) := (s.tables pid).alloc ⟨s.next, 0#32⟩
  let (fd1, t) := t.alloc ⟨s.next + 1, 0#32⟩
  let s' := ((s.setTable pid t).setSock s.next ⟨s.next + 1, []⟩).setSock (s.next + 1) ⟨s.next, []⟩
  ({ s' with next := s.next + 2 }, (fd0, fd1))

/-- ipc/src/linux/channel.rs:17-37 `IpcChannel::new`. `fails` is any failure of `socketpair`, which then
changes nothing. `into_handle` and `from_handle` (39-45) are the identity on the descriptor,
`set_remote_process` (47-50) does nothing. -/
def channelPairNew (s : SockNet) (pid : Nat) (fails : Option Nat) :
    SockNet × Except IpcError (Nat × Nat) :=
  match fails with
  | some e => (s, .error (.internalOsOperationFailed c!"socketpair() failed" e))
  | none =>
    let (s, fds) := sysSocketpair s pid
    (s, .ok fds)

/-- The descriptor a call gives, as the open file it is on. -/
def onFile {α : Type} (t : FdTable) : Except IpcError (Option (α × Option Nat)) →
    Except IpcError (Option (α × Option Nat))
  | .ok (some (m, h)) => .ok (some (m, h.bind fun fd => (t.get fd).map FdEntry.file))
  | r => r

/-- What is seen of a step: a creation with the open files of the ends, a `send` and a `recv` with the
open file of the end used, the serialized message, the open file of the handle if there is one, and
the results. -/
inductive ChanEvent : Type 1
  | created (ends : Option (Nat × Nat))
  | sent (sock : Nat) (encoded : Option Bytes) (file : Option Nat) (result : Except IpcError Unit)
  | received (sock : Nat) {α : Type} (dec : Parser α) (cap : Nat)
      (result : Except IpcError (Option (α × Option Nat)))
  | other

/-- One step of the processes. A call which would block takes no step until it no longer does. -/
inductive ChanStep (abi : Abi) : SockNet → ChanEvent → SockNet → Prop
  /-- `IpcChannel::new` in process `pid`. -/
  | create (s : SockNet) (pid : Nat) (fails : Option Nat) :
      ChanStep abi s
        (.created (match fails with
          | none => some (s.next, s.next + 1)
          | some _ => none))
        (channelPairNew s pid fails).1
  /-- `send` on the channel whose descriptor is `fd`, which succeeds only if the other end still exists
  (EPIPE otherwise, and any other failure at any time). -/
  | send (s : SockNet) (pid fd : Nat) (e : FdEntry) (k : Sock) (encoded : Option Bytes)
      (handle : Option Nat) (fails : Option Nat) :
      (s.tables pid).get fd = some e → s.socks e.file = some k →
      (∀ h, handle = some h → h < 2 ^ 31) → (fails = none → s.Live k.peer) →
      ChanStep abi s
        (.sent e.file encoded (handle.bind fun h => ((s.tables pid).get h).map FdEntry.file)
          ((channelSend abi (s.tables pid) encoded handle fails).map fun _ => ()))
        (match channelSend abi (s.tables pid) encoded handle fails, s.socks k.peer with
          | .ok d, some p => s.setSock k.peer { p with queue := p.queue ++ [d] }
          | _, _ => s)
  /-- `recv` when a datagram waits: it is taken out of the queue. -/
  | recv (s : SockNet) (pid fd : Nat) (e : FdEntry) (k : Sock) {α : Type} (dec : Parser α)
      (cap canInstall : Nat) (d : Datagram) (rest : List Datagram) :
      (s.tables pid).get fd = some e → s.socks e.file = some k → k.queue = d :: rest →
      ChanStep abi s
        (.received e.file dec cap
          (onFile (channelRecv abi dec cap canInstall (s.tables pid) (.datagram d)).1
            (channelRecv abi dec cap canInstall (s.tables pid) (.datagram d)).2))
        ((s.setSock e.file { k with queue := rest }).setTable pid
          (channelRecv abi dec cap canInstall (s.tables pid) (.datagram d)).1)
  /-- `recv` when nothing waits and the other end no longer exists. -/
  | eof (s : SockNet) (pid fd : Nat) (e : FdEntry) (k : Sock) {α : Type} (dec : Parser α)
      (cap canInstall : Nat) :
      (s.tables pid).get fd = some e → s.socks e.file = some k → k.queue = [] → ¬ s.Live k.peer →
      ChanStep abi s
        (.received e.file dec cap (channelRecv abi dec cap canInstall (s.tables pid) .eof).2)
        s
  /-- `recv` when `recvmsg` fails. -/
  | recvFails (s : SockNet) (pid fd : Nat) (e : FdEntry) (k : Sock) {α : Type} (dec : Parser α)
      (cap canInstall errno : Nat) :
      (s.tables pid).get fd = some e → s.socks e.file = some k →
      ChanStep abi s
        (.received e.file dec cap (channelRecv abi dec cap canInstall (s.tables pid) (.error errno)).2)
        s
  /-- Anything else the processes do to their tables (`open`, `close`, `dup`, `fork`, `execve`, `exit`):
  a descriptor is on a file that existed or on a new one, which is not one of these sockets. -/
  | other (s : SockNet) (tables : Nat → FdTable) (next : Nat) :
      s.next ≤ next →
      (∀ pid fd e, (tables pid).get fd = some e → s.Live e.file ∨ (s.next ≤ e.file ∧ e.file < next)) →
      ChanStep abi s .other { s with tables := tables, next := next }

/-- Any number of steps, with what was seen. -/
inductive ChanRun (abi : Abi) : SockNet → List ChanEvent → SockNet → Prop
  | nil (s : SockNet) : ChanRun abi s [] s
  | snoc {s s' s'' : SockNet} {evs : List ChanEvent} {ev : ChanEvent} :
      ChanRun abi s evs s' → ChanStep abi s' ev s'' → ChanRun abi s (evs ++ [ev]) s''

end Iris
