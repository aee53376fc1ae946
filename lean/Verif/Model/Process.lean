import Verif.Model.Entrypoint
/-!
# Starting a worker on Linux

Models broker/src/linux/process.rs, broker/src/worker.rs, broker/src/error.rs and
policy/src/error.rs:12-26.
-/
namespace Iris

/-- What the system decides while a process is created. -/
structure ProcOs where
  /-- `pipe`: an errno, or the two open files (read end, write end) -/
  pipe : Except Nat (Nat × Nat)
  uid : Nat
  gid : Nat
  /-- the three attempts at `clone`: with a user and a PID namespace, with a PID
  namespace, with none; an errno or a process number -/
  clone1 : Except Nat Nat
  clone2 : Except Nat Nat
  clone3 : Except Nat Nat
  /-- `read` on the pipe fails with an errno -/
  readError : Option Nat
  /-- what the system decides in the new process -/
  entry : EntryOs

/-- policy/src/error.rs:12-26. -/
def PolicyError.ofHandle : HandleError → PolicyError
  | .invalidHandleValue raw => .invalidHandleValue raw.toNat
  | .internalOsOperationFailed d _ code => .internalOsOperationFailed d code

/-- broker/src/error.rs:20-37. -/
def BrokerError.ofHandle : HandleError → BrokerError
  | .invalidHandleValue _ => .internalOsOperationFailed c!"invalid handle value used" 0
  | .internalOsOperationFailed d _ code => .internalOsOperationFailed d code

/-- `u32::from_be_bytes`. -/
def ofBe (b : Bytes) : Nat := b.foldl (fun n x => n * 256 + x.toNat) 0

/-- broker/src/linux/process.rs:73-74: `format!("{uid} {uid} 1\n")`. -/
def idMap (n : Nat) : Bytes := utf8 (dec n ++ ' ' :: dec n ++ c!" 1\n")

/-- broker/src/linux/process.rs:54-96: what the entry point is given. -/
def entryParams (p : Policy) (c : ProcessConfig) (os : ProcOs) (childPipe : Nat) : EntryParams :=
  { uidMap := idMap os.uid
    gidMap := idMap os.gid
    exe := c.exe
    argv := c.argv
    envp := c.envp
    allowed := p.inheritedHandles
    errnoPipe := childPipe
    stdin := c.stdin
    stdout := c.stdout
    stderr := c.stderr }

/-- broker/src/linux/process.rs:104-106 and 148-178: three attempts; the error is that of
the last one. The flags say whether there is a new user and a new PID namespace. -/
def tryClone (os : ProcOs) : Except BrokerError (Nat × Bool × Bool) :=
  match os.clone1, os.clone2, os.clone3 with
  | .ok pid, _, _ => .ok (pid, true, true)
  | .error _, .ok pid, _ => .ok (pid, false, true)
  | .error _, .error _, .ok pid => .ok (pid, false, false)
  | .error _, .error _, .error e => .error (.internalOsOperationFailed c!"clone() failed" e)

/-- A created process: its number, whether it has a PID namespace of its own, what
became of it. -/
structure Child where
  pid : Nat
  pidNs : Bool
  ending : EntryEnd
deriving DecidableEq, Repr

/-- The outcome of creating a process: the function's result, the broker's descriptor
table, and the process created, if any. -/
structure ProcRun where
  result : Except BrokerError Nat
  table : FdTable
  child : Option Child
deriving DecidableEq

/-- What `read` finds in the pipe whose write end is open file `w`, once the broker has
closed its own copy: what the new process wrote to that file, or the end of file. -/
def pipeContents (w : Nat) : EntryEnd → Bytes
  | .execFailed _ (some (f, b)) => if f = w then b else []
  | _ => []

/-- broker/src/linux/process.rs:120-140: read the pipe. A failure of `read` is taken for
success (`res > 0` is the only test). -/
def readErrno (os : ProcOs) (w pid : Nat) (e : EntryEnd) : Except BrokerError Nat :=
  match os.readError with
  | some _ => .ok pid
  | none =>
    let got := (pipeContents w e).take 4
    if 0 < got.length then
      .error (.internalOsOperationFailed c!"execve()" (ofBe (got ++ List.replicate (4 - got.length) 0)))
    else .ok pid

/-- broker/src/linux/process.rs:27-141 `OSSandboxedProcess::new`. Both ends of the pipe
are closed on every path. The new process has a copy of the descriptor table. -/
def newProcess (p : Policy) (c : ProcessConfig) (t : FdTable) (caps : Caps) (os : ProcOs) : ProcRun :=
  if c.argv = [] then ⟨.error .missingCommandLine, t, none⟩
  else match os.pipe with
    | .error e => ⟨.error (.internalOsOperationFailed c!"pipe() failed" e), t, none⟩
    | .ok (r, w) =>
      let (parentPipe, t) := t.alloc ⟨r, 0#32⟩
      let (childPipe, t) := t.alloc ⟨w, 0#32⟩
      match setInheritable t childPipe false with
      | (.error e, t) =>
        ⟨.error (.ofHandle e), (t.erase childPipe).erase parentPipe, none⟩
      | (.ok (), t) =>
        match tryClone os with
        | .error e => ⟨.error e, (t.erase childPipe).erase parentPipe, none⟩
        | .ok (pid, _, pidNs) =>
          let ending := cloneEntrypoint os.entry (entryParams p c os childPipe) t caps
          ⟨readErrno os w pid ending, (t.erase childPipe).erase parentPipe, some ⟨pid, pidNs, ending⟩⟩

/-- What the system, and the worker, decide while a worker is created. -/
structure NewOs where
  /-- `socketpair`: an errno, or two open files -/
  socketpair : Except Nat (Nat × Nat)
  proc : ProcOs
  /-- the first thing received on the channel -/
  first : Incoming
  osFirst : OsChoice
  /-- the result of building the filter -/
  filter : Option Bytes
  spawnOk : Bool

/-- policy/src/policy.rs:75-88 `allow_inherit_handle` on an open descriptor table, with
the error conversions of policy/src/error.rs:12-26 and broker/src/error.rs:39-43. -/
def allowHandle (t : FdTable) (p : Policy) (fd : Nat) : Except BrokerError Policy :=
  match p.allowInheritHandle fd ((isInheritable t fd).mapError PolicyError.ofHandle) with
  | (.ok (), p) => .ok p
  | (.error e, _) => .error (.cannotBuildPolicyForWorker e)

/-- broker/src/worker.rs:36-45: the loop on the redirected streams. -/
def allowHandles (t : FdTable) (p : Policy) : List Nat → Except BrokerError Policy
  | [] => .ok p
  | fd :: fds =>
    match allowHandle t p fd with
    | .error e => .error e
    | .ok p => allowHandles t p fds

/-- The outcome of creating a worker: the result (the process number and the thread
serving it), the broker's descriptor table, and the process created, if any. -/
structure NewRun where
  result : Except BrokerError (Nat × Broker)
  table : FdTable
  child : Option Child
deriving DecidableEq

/-- broker/src/worker.rs:34-53: the policy and configuration for the new process. -/
def prepareWorker (t : FdTable) (p : Policy) (c : ProcessConfig) (workerEnd : Nat) :
    Except BrokerError (Policy × ProcessConfig) :=
  match allowHandle t p workerEnd with
  | .error e => .error e
  | .ok p =>
    match allowHandles t p ([c.stdin, c.stdout, c.stderr].filterMap id) with
    | .error e => .error e
    | .ok p =>
      match c.setEnv (ipcHandleVar workerEnd) with
      | (.error e, _) => .error e
      | (.ok (), c) => .ok (p, c)

/-- broker/src/worker.rs:18-85 `Worker::new`. `set_remote_process` does nothing on Linux
(ipc/src/linux/channel.rs:47-50). Returning early drops both ends of the channel. The
configuration and policy are borrowed immutably and cloned. -/
def workerNew (abi : Abi) (t : FdTable) (caps : Caps) (c : ProcessConfig) (p : Policy) (os : NewOs) :
    NewRun :=
  match os.socketpair with
  | .error e => ⟨.error (.internalOsOperationFailed c!"socketpair() failed" e), t, none⟩
  | .ok (a, b) =>
    let (brokerEnd, t) := t.alloc ⟨a, 0#32⟩
    let (workerEnd, t) := t.alloc ⟨b, 0#32⟩
    match setInheritable t workerEnd true with
    | (.error e, t) => ⟨.error (.ofHandle e), (t.erase workerEnd).erase brokerEnd, none⟩
    | (.ok (), t) =>
      match prepareWorker t p c workerEnd with
      | .error e => ⟨.error e, (t.erase workerEnd).erase brokerEnd, none⟩
      | .ok (p, c) =>
        let run := newProcess p c t caps os.proc
        match run.result with
        | .error e => ⟨.error e, (run.table.erase workerEnd).erase brokerEnd, run.child⟩
        | .ok pid =>
          match startIpcLoop abi p.runtime (run.table.erase workerEnd) brokerEnd os.first os.osFirst
              os.filter os.spawnOk with
          | (.error e, t, _) => ⟨.error e, t, run.child⟩
          | (.ok s, t, _) => ⟨.ok (pid, s), t, run.child⟩

end Iris
