import Verif.Model.Broker
/-!
# Several workers served by one broker process

Models the threads that broker/src/linux/ipc_loop.rs:43-74 spawns, one for each worker. They
share the process's descriptor table. A thread can be interrupted between any two system
calls, so an iteration of the loop is split in steps which each make one: `recvmsg`, closing
what was received, `open`, `sendmsg`, closing the file, closing the channel. The pieces are
the functions of Model/Channel.lean and Model/Broker.lean, applied to the table as it is then.
-/
namespace Iris

/-- Where a thread is in its loop. `os` is what the operating system decides during the
iteration. -/
inductive LoopPhase
  /-- about to call `recvmsg` -/
  | idle
  /-- `recvmsg` returned -/
  | received (os : OsChoice) (r : Except Nat RecvMsg)
  /-- `recv` returned a request (ipc_loop.rs:46) -/
  | serving (os : OsChoice) (m : IPCRequest)
  /-- about to send a reply (line 70) -/
  | replying (os : OsChoice) (resp : IPCResponse) (handle : Option Nat)
  /-- about to drop a handle, then to go on or to leave the loop -/
  | closing (handle : Option Nat) (next : Status)
  /-- about to drop the channel -/
  | leaving (why : Status)
  | gone (why : Status)

/-- A thread: the policy and channel moved into it (line 45), where it is, what it did, and on
which open socket each `recvmsg` and `sendmsg` was made. -/
structure Loop where
  policy : Policy
  chan : Nat
  phase : LoopPhase
  trace : List Action
  sockets : List (Option Nat)

/-- The open file a descriptor refers to now. -/
def socketOf (t : FdTable) (fd : Nat) : Option Nat := (t.get fd).map (·.file)

/-- ipc/src/linux/channel.rs:119-156: the `recvmsg` of `recv`. -/
def startRecv (abi : Abi) (t : FdTable) (os : OsChoice) : Incoming → FdTable × Except Nat RecvMsg
  | .error e => (t, .error e)
  | .eof => (t, .ok ⟨[], [], false, false⟩)
  | .datagram d =>
    ((sysRecvmsg abi os.canInstall t IPC_MESSAGE_MAX_SIZE (CMSG_SIZE abi) d).1,
     .ok (sysRecvmsg abi os.canInstall t IPC_MESSAGE_MAX_SIZE (CMSG_SIZE abi) d).2)

/-- What is done with the result of `recv` (ipc_loop.rs:46-59). -/
def afterRecv (os : OsChoice) : Except IpcError (Option (IPCRequest × Option Nat)) → LoopPhase
  | .ok (some (m, none)) => .serving os m
  | .ok (some (_, some h)) => .closing (some h) .ended
  | _ => .leaving .ended

/-- One step of a thread which is not about to receive. -/
def Loop.go [Target] (abi : Abi) (t : FdTable) (th : Loop) : FdTable × Loop :=
  match th.phase with
  | .idle => (t, th)
  | .received _ (.error _) => (t, { th with phase := .leaving .ended })
  | .received os (.ok r) =>
    ((recvFinish decRequest t r).1, { th with phase := afterRecv os (recvFinish decRequest t r).2 })
  | .serving os m =>
    match serveRequest th.policy t os m with
    | .panic acts => (t, { th with phase := .leaving .panicked, trace := th.trace ++ acts })
    | .reply t resp handle acts =>
      (t, { th with phase := .replying os resp handle, trace := th.trace ++ acts })
  | .replying os resp handle =>
    match channelSend abi t (sendResponse resp) handle os.sendError with
    | .ok d =>
      (t, { th with phase := .closing handle .running, trace := th.trace ++ [.sent resp d.files],
                    sockets := th.sockets ++ [socketOf t th.chan] })
    | .error _ =>
      (t, { th with phase := .closing handle .ended, sockets := th.sockets ++ [socketOf t th.chan] })
  | .closing handle next =>
    (dropHandle t handle, { th with phase := if next = .running then .idle else .leaving next })
  | .leaving why => (t.erase th.chan, { th with phase := .gone why })
  | .gone _ => (t, th)

/-- The `recvmsg` of a thread. -/
def Loop.receive (abi : Abi) (t : FdTable) (th : Loop) (inc : Incoming) (os : OsChoice) :
    FdTable × Loop :=
  ((startRecv abi t os inc).1,
   { th with phase := .received os (startRecv abi t os inc).2
             sockets := th.sockets ++ [socketOf t th.chan] })

/-- The descriptors a thread has received or opened and not closed yet, with its channel. -/
def Loop.owned (th : Loop) : List Nat :=
  match th.phase with
  | .received _ (.ok r) => th.chan :: r.cmsgs.flatMap (·.fds)
  | .replying _ _ h => th.chan :: h.toList
  | .closing h _ => th.chan :: h.toList
  | .gone _ => []
  | _ => [th.chan]

/-- The broker process: its descriptor table and its threads. -/
structure Loops where
  table : FdTable
  threads : Nat → Loop

def Loops.put (w : Loops) (j : Nat) (x : FdTable × Loop) : Loops :=
  ⟨x.1, fun k => if k = j then x.2 else w.threads k⟩

/-- What happened: thread `j` received something, or made another step. -/
inductive LoopStep
  | recv (j : Nat) (inc : Incoming) (os : OsChoice)
  | go (j : Nat)

/-- An execution: the threads' steps in any order, and between them anything else the process
does (for instance creating other workers) to descriptors that are not the threads'. `ok`
is assumed of the table at all times. -/
inductive LoopsExec [Target] (abi : Abi) (ok : FdTable → Prop) (w : Loops) : List LoopStep → Loops → Prop
  | start (h : ok w.table) : LoopsExec abi ok w [] w
  | recv (ls : List LoopStep) (w1 : Loops) (j : Nat) (inc : Incoming) (os : OsChoice)
    (he : LoopsExec abi ok w ls w1) (hi : (w1.threads j).phase = .idle)
    (h : ok ((w1.threads j).receive abi w1.table inc os).1) :
    LoopsExec abi ok w (ls ++ [.recv j inc os]) (w1.put j ((w1.threads j).receive abi w1.table inc os))
  | go (ls : List LoopStep) (w1 : Loops) (j : Nat) (he : LoopsExec abi ok w ls w1)
    (h : ok ((w1.threads j).go abi w1.table).1) :
    LoopsExec abi ok w (ls ++ [.go j]) (w1.put j ((w1.threads j).go abi w1.table))
  | other (ls : List LoopStep) (w1 : Loops) (t : FdTable) (he : LoopsExec abi ok w ls w1)
    (hf : ∀ j, ∀ fd ∈ (w1.threads j).owned, t.get fd = w1.table.get fd) (h : ok t) :
    LoopsExec abi ok w ls { w1 with table := t }

/-- What thread `i` received in an execution, in order. -/
def inputsOf (i : Nat) (ls : List LoopStep) : List (Incoming × OsChoice) :=
  ls.filterMap fun l => match l with
    | .recv j inc os => if j = i then some (inc, os) else none
    | .go _ => none

end Iris
