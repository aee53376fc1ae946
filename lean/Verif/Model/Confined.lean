import Verif.Model.Files
import Verif.Model.Worker
/-!
# A confined program, its broker and the files

The calls with a path which a program makes on Linux one after the other, each handled by worker/src/linux/lockdown.rs:198-381 and by the
broker (broker/src/linux/ipc_loop.rs:45-74), with the files they are about (Model/Files.lean) and with the working directory of the process.

Simplifications: those of Model/Files.lean. An open file is the file it is of. Between two of these calls the program can do anything else to
its descriptors, and other processes can do anything to the files; both are arbitrary.
-/
namespace Iris

/-- What a program learns from a call. -/
inductive Outcome
  /-- a descriptor of this file, or the attributes of this file -/
  | file (i : Nat)
  /-- success -/
  | done
  | error (errno : Nat)
  /-- anything else: the program is killed, a descriptor of nothing -/
  | other
deriving DecidableEq, Repr

/-- A call: what other processes do to the files before it, the program's descriptors, memory and registers, an error the kernel has for other
reasons than what files exist, and what the system does besides. -/
structure PathTurn where
  others : FileTree → FileTree
  table : FdTable
  mem : Memory
  regs : Regs
  refuse : Option Nat
  io : WorkerIo
  os : OsChoice

/-- The files, the working directory of the program, and its broker. -/
structure Confined where
  tree : FileTree
  cwd : Nat
  broker : Broker

/-- A call of `open`. -/
def Action.isOpen : Action → Bool
  | .opened _ _ _ => true
  | _ => false

/-- `fstat` or `fchdir` (worker/src/linux/lockdown.rs:359 and 375) on a descriptor: an error, or success. -/
def kOnFd (fs : FileTree) (t : FdTable) (isChdir : Bool) (fd : Nat) : Option Nat :=
  match t.get fd with
  | none => some 9
  | some e =>
    if isChdir then
      match fs[e.file]? with
      | some (.dir _ _) => none
      | _ => some 20
    else none

/-- What the program finds in its result register (worker/src/linux/lockdown.rs:284-287) means, by the call it made. `file` is the file
`fstat` was called for. -/
def outcomeOf (nr : BitVec 64) (file : Option Nat) (x : Handled) : Outcome :=
  match x.ret with
  | .code v =>
    if v.msb then .error (-v).toNat
    else if nr = SYS_stat then file.elim .other .file
    else if nr = SYS_chdir then .done
    else (x.table.get v.toNat).elim .other fun e => .file e.file
  | _ => .other

/-- One call with a path, from the trap (worker/src/linux/lockdown.rs:198-381) to its return. `getcwd` is `std::env::current_dir()` (line 314).
The broker's `open` acts on the files when it is called; `fstat` and `fchdir` act on the file the received descriptor is of. Other calls
are not modelled here: they have no outcome and change nothing. -/
def Confined.turn [Target] (abi : Abi) (p : Policy) (audit : Bool) (replace : Bytes → Str) (getcwd : FileTree → Nat → Option Str)
    (w : Confined) (c : PathTurn) : Outcome × Confined :=
  let tree := c.others w.tree
  let io := { c.io with cwd := getcwd tree w.cwd }
  let trap := fun (onFd : Nat → Option Nat) (inc : Incoming) =>
    handleTrap abi audit replace c.mem c.table c.regs { io with incoming := inc, onFd := onFd }
  match (trap io.onFd .eof).sent with
  | some (.openFile q f) =>
    let opened := kOpen tree q f c.refuse
    let os := { c.os with openResult := opened.1 }
    let broker := (withBroker abi p w.broker os (trap io.onFd)).2
    let after := if (broker.trace.drop w.broker.trace.length).any Action.isOpen then opened.2 else tree
    let got := getFdForPath abi c.table q f { io with incoming := brokerReply w.broker broker }
    let file := match got.2 with
      | some (.ok fd) => (got.1.get fd).map FdEntry.file
      | _ => none
    let x := withBroker abi p w.broker os (trap (kOnFd after got.1 (c.regs.nr = SYS_chdir)))
    (outcomeOf c.regs.nr file x.1,
      ⟨after, if c.regs.nr = SYS_chdir ∧ x.1.ret = .code 0#64 then file.getD w.cwd else w.cwd, x.2⟩)
  | _ => (.other, { w with tree := tree })

/-- The calls of a program, one after the other. -/
def Confined.run [Target] (abi : Abi) (p : Policy) (audit : Bool) (replace : Bytes → Str) (getcwd : FileTree → Nat → Option Str) :
    Confined → List PathTurn → List Outcome × Confined
  | w, [] => ([], w)
  | w, c :: cs =>
    let x := w.turn abi p audit replace getcwd c
    let y := x.2.run abi p audit replace getcwd cs
    (x.1 :: y.1, y.2)

end Iris
