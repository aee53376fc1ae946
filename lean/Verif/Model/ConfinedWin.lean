import Verif.Model.WinFiles
import Verif.Model.WinWorker
/-!
# A confined Windows program, its broker and the files

The calls of `NtCreateFile` and `NtOpenFile` which a program makes one after the other, each handled by worker/src/windows/lockdown.rs:512-653
and by the broker (broker/src/windows/ipc_loop.rs:50-98, broker/src/windows/brokered_syscalls.rs:57-135), with the files they are about
(Model/WinFiles.lean).

Simplifications: those of Model/WinFiles.lean. Between two of these calls the program can do anything else to its handles, and any process can
do anything to the files; both are arbitrary. The status of a successful call is 0.
-/
namespace Iris

/-- What a program learns from a call. -/
inductive NtOutcome
  /-- success, with a handle of this file, and `Information` -/
  | opened (i : Nat) (info : BitVec 64)
  | failed (status : BitVec 32)
  /-- anything else: the program ends, or has a handle of nothing -/
  | other
deriving DecidableEq, Repr

/-- A hooked call about a file. -/
inductive NtFileCall
  | create (a : CreateFileArgs)
  | «open» (a : OpenFileArgs)
deriving DecidableEq, Repr

/-- worker/src/windows/lockdown.rs:512-653: the hook of this call. -/
def NtFileCall.hooked (c : NtFileCall) (io : WinIPCRequest → WinIo) : Hooked :=
  match c with
  | .create a => hookNtCreateFile a io
  | .open a => hookNtOpenFile a io

/-- A call: what happens to the files before it, the handles of the program, the call, an error the kernel has for other reasons than what
files exist, and what else the system decides: `Information`, the value of the handle in the broker, that of its duplicate, and whether the
broker can write to the pipe. -/
structure NtTurn where
  others : NtTree → NtTree
  table : HTable
  call : NtFileCall
  refuse : Option (BitVec 32)
  info : BitVec 64
  handle : BitVec 64
  dup : Option (BitVec 64)
  writeOk : Bool

/-- The files, and the broker. -/
structure ConfinedWin where
  tree : NtTree
  broker : WinBroker

/-- The file a call of the broker (broker/src/windows/brokered_syscalls.rs:103-117) names, its disposition and its options. -/
def WinAction.creates : WinAction → Option (ObjectName × BitVec 32 × BitVec 32)
  | .called (.createFile _ name _ _ _ disposition options _) _ => some (name, disposition, options)
  | _ => none

/-- What `NtCreateFile` (broker/src/windows/brokered_syscalls.rs:103-117) returns in the broker. -/
def NtTurn.result (c : NtTurn) : Except (BitVec 32) (Nat × Option (Nat × Str)) → NtResult
  | .ok (i, _) => ⟨0#32, c.info, 0#32, c.handle, i⟩
  | .error e => ⟨e, 0#64, 0#32, 0#64, 0⟩

/-- What the system decides during this call. -/
def NtTurn.choice (c : NtTurn) (r : Except (BitVec 32) (Nat × Option (Nat × Str))) : WinChoice := ⟨c.result r, c.dup, c.writeOk⟩

/-- The broker after a hooked call (broker/src/windows/ipc_loop.rs:35-98), if it was in state `b` before. -/
def brokerAfter (debug : Bool) (p : Policy) (b : WinBroker) (os : WinChoice) (h : Hooked) : WinBroker :=
  match h.sent with
  | some r => winAfter debug p b os r
  | none => b

/-- What the program finds when the hook returns (worker/src/windows/lockdown.rs:573-592). -/
def ntOutcomeOf (t : HTable) (h : Hooked) : NtOutcome :=
  match h.ret with
  | .status s =>
    if s.msb then .failed s
    else (t.get (h.handle.getD 0)).elim .other fun i => .opened i (h.info.getD 0)
  | _ => .other

/-- The call to the kernel the broker makes during a call, if it makes one: which one it is does not depend on how it ends. -/
def NtTurn.asks (debug : Bool) (p : Policy) (b : WinBroker) (c : NtTurn) : Option (ObjectName × BitVec 32 × BitVec 32) :=
  let os := c.choice (.error 0xC0000001#32)
  let b' := brokerAfter debug p b os (c.call.hooked (winBrokered debug p b os))
  (b'.trace.drop b.trace.length).findSome? WinAction.creates

/-- One call, from the hook to its return. The broker's call acts on the files. -/
def ConfinedWin.turn (debug : Bool) (p : Policy) (k : NtKernel) (w : ConfinedWin) (c : NtTurn) : NtOutcome × ConfinedWin :=
  let tree := c.others w.tree
  let b := { w.broker with tables := { w.broker.tables with worker := c.table } }
  let opened := match c.asks debug p b with
    | some (name, disposition, options) => ntCreateFile k tree name disposition options c.refuse
    | none => (.error 0xC0000001#32, tree)
  let os := c.choice opened.1
  let h := c.call.hooked (winBrokered debug p b os)
  let b' := brokerAfter debug p b os h
  (ntOutcomeOf b'.tables.worker h, ⟨opened.2, b'⟩)

/-- The calls of a program, one after the other. -/
def ConfinedWin.run (debug : Bool) (p : Policy) (k : NtKernel) : ConfinedWin → List NtTurn → List NtOutcome × ConfinedWin
  | w, [] => ([], w)
  | w, c :: cs =>
    let x := w.turn debug p k c
    let y := x.2.run debug p k cs
    (x.1 :: y.1, y.2)

end Iris
